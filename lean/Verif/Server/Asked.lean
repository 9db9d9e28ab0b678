import Verif.Server.Migrate

/-!
# The callbacks of a call

Which callbacks of the device run in a call, and why: to quiesce, for the request that is executed, or for the client that is
gone.  This is `Turn`, with the device in view. -/

namespace Verif.Server
open Verif
open Verif.Dma (Fd)

/-- The device is asked to quiesce. -/
def Call.Pause (c : Call) : Prop := ∃ r, c = .quiesce r

/-- The callbacks of a call, and the replies. -/
inductive Trace (cfg : Cfg) (st : St) (op : Op) (o : Out) : Prop where
  /-- nothing said, nothing done -/
  | idle : sents o.evs = [] → (∀ c ∈ calls o.evs, c.Pause) → Trace cfg st op o
  /-- a message that is not a request was turned down -/
  | bad : op.subject st = none → calls o.evs = [] → Trace cfg st op o
  /-- the request was turned down -/
  | refused (m : Msg) (e : Nat) : op.subject st = some m → Errno e → (∀ c ∈ calls o.evs, c.Pause) →
      (m.hdr.noReply = true → sents o.evs = []) →
      (m.hdr.noReply = false → ∃ w, sents o.evs = [w] ∧ Wire.IsReply m.hdr e [] w.bytes) → Trace cfg st op o
  /-- the request was executed -/
  | executed (env : Env) (q : Bool) (m : Msg) (l : List Byte) (p : List Call) : env.Fair →
      op.subject st = some m → op.env? = some env →
      (exec cfg env { st with quiesced := q } m).res.isFault = false →
      (exec cfg env { st with quiesced := q } m).out = .bytes l → (∀ c ∈ p, c.Pause) →
      calls o.evs = p ++ calls (exec cfg env { st with quiesced := q } m).evs →
      (m.hdr.noReply = true → sents o.evs = []) →
      (m.hdr.noReply = false → ∃ w, sents o.evs = [w] ∧
        Tells w (replyErr (exec cfg env { st with quiesced := q } m).res % U32) l) → Trace cfg st op o
  /-- the client is gone -/
  | reset (env : Env) (q : Bool) (p : List Call) : op.env? = some env → sents o.evs = [] → (∀ c ∈ p, c.Pause) →
      calls o.evs = p ++ calls (resetQuiesced cfg env { st with quiesced := q }).evs → Trace cfg st op o

theorem calls_cons {e : Ev} (h : ∀ c q, e ≠ .call c q) (l : List Ev) : calls (e :: l) = calls l := by
  unfold calls
  rw [List.filterMap_cons]
  cases e <;> first | rfl | exact absurd rfl (h _ _)

theorem calls_pause (r : Option Nat) (q : Bool) : ∀ c ∈ calls (bracket .quiesce (.quiesce r) q), c.Pause := by
  intro c hc
  cases List.mem_singleton.mp (show c ∈ [Call.quiesce r] from hc)
  exact ⟨r, rfl⟩

theorem calls_ofIrq (q : Bool) {l : List Irq.Ev} (h : ∀ e ∈ l, ∀ i s c m, e ≠ .state i s c m) :
    calls (l.flatMap (ofIrq q)) = [] := by
  induction l with
  | nil => rfl
  | cons e l ih =>
    rw [List.flatMap_cons, calls_append, ih fun e' he' => h e' (List.mem_cons_of_mem _ he')]
    have := h e (List.mem_cons_self ..)
    cases e <;> first | rfl | exact absurd rfl (this _ _ _ _)

theorem refuse_calls (cfg : Cfg) (env : Env) (k : Nat) (st : St) (h : Wire.Hdr) (hf : h.Fits) (fds : List Fd) (err : Nat)
    (he : err < U32) (hs : Wire.Healthy env.snd) : calls (refuse cfg env k st h fds err).evs = [] := by
  obtain ⟨ws, h1, _, _⟩ := doReply_ok cfg env k st h hf err he hs
  unfold refuse
  dsimp only
  rw [h1]
  show calls (ws.map Ev.sent ++ closes (fds.map some) ++ [.freed]) = []
  rw [calls_append, calls_append, calls_sent, calls_closes]
  rfl

theorem trigger_state (wr : Option Nat) (irqs : Irq.Irqs) (sub : Nat) :
    ∀ e ∈ (Irq.trigger wr irqs sub).2, ∀ i s c m, e ≠ .state i s c m := by
  unfold Irq.trigger
  rcases irqs.efds[sub]? with _ | _ | fd
  · exact fun _ h => by cases h
  · exact fun _ h => by cases h
  · cases wr with
    | some x => exact fun _ h => by cases h
    | none =>
      intro e he
      cases List.mem_singleton.mp he
      intro _ _ _ _ h
      cases h

theorem resetQuiesced_sents (cfg : Cfg) (env : Env) (st : St) : sents (resetQuiesced cfg env st).evs = [] := by
  have hd : ∀ st', sents (deviceReset cfg env st' .lostConn).2.2 = [] := by
    intro st'
    unfold deviceReset
    by_cases h : cfg.hasReset = true
    · rw [if_pos h]
      dsimp only
      cases env.resetCb .lostConn <;> rfl
    · rw [if_neg h]; rfl
  unfold resetQuiesced
  cases dropDma cfg st.dma with
  | err e => rfl
  | fault f => rfl
  | ok y =>
    dsimp only
    have h1 := (inner_quiet (inner_flatMap (inner_ofDma (q := st.quiesced)) y.2)).1
    cases hx : Irq.reset cfg.irq (deviceReset cfg env { st with dma := y.1 } .lostConn).1.irqs with
    | err e => dsimp only; rw [sents_append, h1, hd]; rfl
    | fault e => dsimp only; rw [sents_append, h1, hd]; rfl
    | ok z =>
      have h2 := (inner_quiet (inner_flatMap (inner_ofIrq (q := st.quiesced)) z.2)).1
      dsimp only
      rw [sents_append, sents_append, sents_append, h1, hd, h2]
      rfl

section
variable {cfg : Cfg} (ht : TableOk cfg.tbl)

/-- Losing the connection. -/
theorem resetCtx_trace (st : St) (env : Env) (k : Nat) :
    sents (resetCtx cfg env k st).evs = [] ∧
    ((∀ c ∈ calls (resetCtx cfg env k st).evs, c.Pause) ∨
    ∃ p, (∀ c ∈ p, Call.Pause c) ∧
      calls (resetCtx cfg env k st).evs = p ++ calls (resetQuiesced cfg env st).evs) := by
  have hs := resetQuiesced_sents cfg env st
  unfold resetCtx
  by_cases hq : cfg.hasQuiesce = true ∧ st.pending = .none
  · rw [if_pos hq]
    dsimp only
    obtain ⟨b1, _⟩ := quiesce_quiet (env.quiesce k) st.quiesced
    have b3 := calls_pause (env.quiesce k) st.quiesced
    revert b1 b3
    generalize bracket .quiesce (.quiesce (env.quiesce k)) st.quiesced = br
    intro b1 b3
    cases env.quiesce k with
    | none => exact ⟨by rw [sents_append, b1, hs]; rfl, .inr ⟨_, b3, calls_append ..⟩⟩
    | some e =>
      dsimp only
      by_cases he : e = EBUSY
      · rw [if_pos he]; exact ⟨b1, .inl b3⟩
      · rw [if_neg he]; exact ⟨b1, .inl b3⟩
  · rw [if_neg hq]; exact ⟨hs, .inr ⟨[], (fun _ h => by cases h), rfl⟩⟩

include ht in
/-- Every call that does not end abnormally is one of these. -/
theorem call_trace {st : St} (hk : KeptGood Real st) (op : Op) (ho : op.Fair)
    (hno : (call cfg st op).res.isFault = false) : Trace cfg st op (call cfg st op) := by
  cases op with
  | attach n =>
    have h1 : (call cfg st (.attach n)).evs = [] := by
      simp only [call]
      unfold attach
      by_cases h : st.conn = true
      · rw [if_pos h]
      · rw [if_neg h]; cases n <;> rfl
    exact .idle (by rw [h1]; rfl) (by rw [h1]; simp [calls])
  | config f => exact .idle rfl (by simp [call, calls])
  | mark sgl =>
    have h1 : (call cfg st (.mark sgl)).evs = [] := by
      simp only [call]
      cases st.dma with
      | none => rfl
      | some c =>
        dsimp only
        cases Dma.sglMark c sgl <;> rfl
    exact .idle (by rw [h1]; rfl) (by rw [h1]; simp [calls])
  | trigger wr sub =>
    obtain ⟨h1, _⟩ := inner_quiet (inner_flatMap (inner_ofIrq (q := st.quiesced)) (Irq.trigger wr st.irqs sub).2)
    refine .idle h1 fun c hc => ?_
    rw [show calls (call cfg st (.trigger wr sub)).evs = [] from calls_ofIrq _ (trigger_state wr st.irqs sub)] at hc
    cases hc
  | transfer env lost =>
    simp only [call] at hno ⊢
    unfold transfer at hno ⊢
    by_cases hp : st.pending ≠ .none
    · rw [if_pos hp] at hno; cases hno
    rw [if_neg hp] at hno ⊢
    by_cases hl : lost = true ∧ st.conn = true
    · rw [if_pos hl] at hno ⊢
      obtain ⟨h1, h2 | ⟨p, h2, h3⟩⟩ := resetCtx_trace (cfg := cfg) st env 0
      · exact .idle h1 h2
      · exact .reset env st.quiesced p rfl h1 h2 h3
    · rw [if_neg hl]; exact .idle rfl (by simp [calls])
  | quiesced env e =>
    simp only [call] at hno ⊢
    unfold deviceQuiesced at hno ⊢
    by_cases hp : cfg.hasQuiesce = false ∨ st.pending = .none
    · rw [if_pos hp]; exact .idle rfl (by simp [calls])
    rw [if_neg hp] at hno ⊢
    obtain ⟨mig, dm, irqs, pci, conn, pending, q, mf, mx⟩ := st
    by_cases he : e = 0
    · subst he
      simp only [if_true] at hno ⊢
      cases pending with
      | none => exact absurd (.inr rfl) hp
      | msg m =>
        have hm : m.hdr.Fits := (real_fits (hk m rfl)).1 _ _ _ rfl
        obtain ⟨l, g1, g2, g3, g4, g5, g6⟩ := handle_turn cfg ht env ho 0
          ⟨mig, dm, irqs, pci, conn, .msg m, true, mf, mx⟩ m hm hno
        obtain ⟨q1, _⟩ := handle_calls cfg ht env ho 0 ⟨mig, dm, irqs, pci, conn, .msg m, true, mf, mx⟩ m hm g1
        refine .executed env true m l [] ho rfl rfl g1 g4 (fun _ h => by cases h) ?_ ?_ ?_
        · dsimp only; rw [calls_cons (by simp)]; exact q1
        · intro hn; dsimp only; rw [sents_cons (by simp)]; exact g5 hn
        · intro hn; dsimp only; rw [sents_cons (by simp)]
          obtain ⟨w, w1, w2, _⟩ := g6 hn
          exact ⟨w, w1, w2⟩
      | ctxReset =>
        refine .reset env true [] rfl ?_ (fun _ h => by cases h) ?_
        · dsimp only; rw [sents_cons (by simp)]; exact resetQuiesced_sents ..
        · dsimp only; rw [calls_cons (by simp)]; rfl
    · simp only [if_neg he]
      cases pending with
      | none => exact absurd (.inr rfl) hp
      | msg m =>
        obtain ⟨c1, c2⟩ := inner_quiet (inner_closes (m.fds.map some))
        refine .idle ?_ ?_
        · dsimp only; rw [sents_cons (by simp), sents_append, c1]; rfl
        · dsimp only; rw [calls_cons (by simp), calls_append, calls_closes]; simp [calls]
      | ctxReset => exact .idle rfl (by simp [calls])
  | run env i =>
    obtain ⟨hf, hreal⟩ := ho
    simp only [call] at hno ⊢
    unfold poll at hno ⊢
    by_cases hp : st.pending ≠ .none
    · rw [if_pos hp]; exact .idle rfl (by simp [calls])
    rw [if_neg hp] at hno ⊢
    by_cases hc : st.conn = false
    · rw [if_pos hc]; exact .idle rfl (by simp [calls])
    rw [if_neg hc] at hno ⊢
    cases i with
    | again => exact .idle rfl (by simp [calls])
    | lost e leak =>
      dsimp only at hno ⊢
      obtain ⟨h1, h2 | ⟨p, h2, h3⟩⟩ := resetCtx_trace (cfg := cfg) st env 0
      · refine .idle ?_ ?_
        · dsimp only; rw [sents_cons (by simp)]; exact h1
        · dsimp only; rw [calls_cons (by simp)]; exact h2
      · refine .reset env st.quiesced p rfl ?_ h2 ?_
        · dsimp only; rw [sents_cons (by simp)]; exact h1
        · dsimp only; rw [calls_cons (by simp)]; exact h3
    | failed e leak => exact .idle rfl (by simp [calls])
    | bad h fds e =>
      dsimp only at hno ⊢
      have r1 := refuse_calls cfg env 0 st h ((real_fits hreal).2 _ _ _ rfl) fds (e % U32) (Nat.mod_lt _ (by decide)) hf.snd
      rw [← refuse_mod] at r1
      exact .bad rfl (by dsimp only; rw [calls_cons (by simp)]; exact r1)
    | req h body fds =>
      dsimp only at hno ⊢
      have hm : h.Fits := (real_fits hreal).1 _ _ _ rfl
      unfold dispatch at hno ⊢
      by_cases hsh : shouldExec st.mig h.cmd = false
      · simp only [if_pos hsh] at hno ⊢
        obtain ⟨_, _, r3, r4⟩ := refuse_turn cfg env 0 st h hm fds EINVAL (by decide) hf.snd
        have r5 := refuse_calls cfg env 0 st h hm fds EINVAL (by decide) hf.snd
        refine .refused ⟨h, body, fds⟩ EINVAL rfl ⟨by decide, by decide⟩ ?_ ?_ ?_
        · dsimp only; rw [calls_cons (by simp), r5]; intro _ h; cases h
        · intro hn; dsimp only; rw [sents_cons (by simp)]; exact r3 hn
        · intro hn; dsimp only; rw [sents_cons (by simp)]; exact r4 hn
      simp only [if_neg hsh] at hno ⊢
      by_cases hq : needsQuiesce cfg st ⟨h, body, fds⟩ = true
      · simp only [if_pos hq] at hno ⊢
        obtain ⟨b1, _⟩ := quiesce_quiet (env.quiesce 0) st.quiesced
        have b2 := calls_pause (env.quiesce 0) st.quiesced
        revert b1 b2
        generalize bracket .quiesce (.quiesce (env.quiesce 0)) st.quiesced = br at hno ⊢
        intro b1 b2
        cases hqe : env.quiesce 0 with
        | some e =>
          rw [hqe] at hno
          dsimp only at hno ⊢
          by_cases he : e = EBUSY
          · simp only [if_pos he] at hno ⊢
            refine .idle ?_ ?_
            · dsimp only; rw [sents_cons (by simp)]; exact b1
            · dsimp only; rw [calls_cons (by simp)]; exact b2
          · simp only [if_neg he] at hno ⊢
            have hE := hf.quiesce 0 e hqe
            obtain ⟨_, _, r3, r4⟩ := refuse_turn cfg env 1 st h hm fds e hE.2 hf.snd
            have r5 := refuse_calls cfg env 1 st h hm fds e hE.2 hf.snd
            refine .refused ⟨h, body, fds⟩ e rfl hE ?_ ?_ ?_
            · dsimp only; rw [calls_cons (by simp), calls_append, r5, List.append_nil]; exact b2
            · intro hn; dsimp only; rw [sents_cons (by simp), sents_append, b1]; exact r3 hn
            · intro hn; dsimp only; rw [sents_cons (by simp), sents_append, b1]; exact r4 hn
        | none =>
          rw [hqe] at hno
          dsimp only at hno ⊢
          obtain ⟨l, g1, _, _, g4, g5, g6⟩ := handle_turn cfg ht env hf 1 { st with quiesced := true }
            ⟨h, body, fds⟩ hm hno
          obtain ⟨q1, _⟩ := handle_calls cfg ht env hf 1 { st with quiesced := true } ⟨h, body, fds⟩ hm g1
          refine .executed env true ⟨h, body, fds⟩ l _ hf rfl rfl g1 g4 b2 ?_ ?_ ?_
          · dsimp only; rw [calls_cons (by simp), calls_append, q1]
          · intro hn; dsimp only; rw [sents_cons (by simp), sents_append, b1]; exact g5 hn
          · intro hn; dsimp only; rw [sents_cons (by simp), sents_append, b1]
            obtain ⟨w, w1, w2, _⟩ := g6 hn
            exact ⟨w, w1, w2⟩
      · simp only [if_neg hq] at hno ⊢
        obtain ⟨l, g1, _, _, g4, g5, g6⟩ := handle_turn cfg ht env hf 0 st ⟨h, body, fds⟩ hm hno
        obtain ⟨q1, _⟩ := handle_calls cfg ht env hf 0 st ⟨h, body, fds⟩ hm g1
        refine .executed env st.quiesced ⟨h, body, fds⟩ l [] hf rfl rfl g1 g4 (fun _ h => by cases h) ?_ ?_ ?_
        · dsimp only; rw [calls_cons (by simp)]; exact q1
        · intro hn; dsimp only; rw [sents_cons (by simp)]; exact g5 hn
        · intro hn; dsimp only; rw [sents_cons (by simp)]
          obtain ⟨w, w1, w2, _⟩ := g6 hn
          exact ⟨w, w1, w2⟩

end

end Verif.Server
