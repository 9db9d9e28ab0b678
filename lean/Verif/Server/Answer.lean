import Verif.Server.Reply
import Verif.Server.Demo

/-! # Requests and replies: C24, C47, C49, C51, C54 -/

namespace Verif.Server
open Verif
open Verif.Dma (Fd)

/-! ## C54 -/

/-- Without any assumption: each message sent answers its own request, in order. -/
theorem follow_loose_sound (l : List Ev) : ∀ (s s' : Option (Wire.Hdr × Phase)) (ws : List Wire.Hdr) (ms : List Wire.Sent)
    (all : List Wire.Hdr), monitor (follow false) s l = some s' → ws.length = ms.length →
    (ws ++ owing s).Sublist all →
    ∃ ws', ws'.length = (ms ++ sents l).length ∧ (ws' ++ owing s').Sublist (all ++ wanted l) := by
  induction l with
  | nil =>
    intro s s' ws ms all h hl hsub
    simp only [monitor, Option.some.injEq] at h
    subst h
    exact ⟨ws, by simpa [sents] using hl, by simpa [wanted] using hsub⟩
  | cons e es ih =>
    intro s s' ws ms all h hl hsub
    simp only [monitor] at h
    split at h
    · cases h
    rename_i s1 hs1
    have hstep : ∃ ws1, ws1.length = (ms ++ sents [e]).length ∧ (ws1 ++ owing s1).Sublist (all ++ wanted [e]) := by
      have hquiet : s1 = s → wanted [e] = [] → sents [e] = [] →
          ∃ ws1, ws1.length = (ms ++ sents [e]).length ∧ (ws1 ++ owing s1).Sublist (all ++ wanted [e]) := by
        intro h1 h2 h3
        exact ⟨ws, by rw [h3, List.append_nil]; exact hl, by rw [h1, h2, List.append_nil]; exact hsub⟩
      cases s with
      | none =>
        cases e with
        | got hd fds =>
          simp only [follow, Option.some.injEq] at hs1
          subst hs1
          refine ⟨ws, by simpa [sents] using hl, ?_⟩
          have h1 : ws.Sublist all := by simpa [owing] using hsub
          by_cases hn : hd.noReply = false
          · simpa [owing, wanted, hn] using h1.append (List.Sublist.refl [hd])
          · simpa [owing, wanted, hn] using h1
        | exec | freed | sent => simp [follow] at hs1
        | _ => simp only [follow, Option.some.injEq] at hs1; exact hquiet hs1.symm rfl rfl
      | some x =>
        obtain ⟨hd, p⟩ := x
        cases e with
        | got => simp [follow] at hs1
        | exec h' =>
          simp only [follow] at hs1
          split at hs1
          · rename_i hc
            simp only [Option.some.injEq] at hs1
            subst hs1
            refine ⟨ws, by simpa [sents] using hl, ?_⟩
            simpa [owing, wanted, hc.2] using hsub
          · cases hs1
        | freed =>
          simp only [follow] at hs1
          split at hs1
          · simp only [Option.some.injEq] at hs1
            subst hs1
            refine ⟨ws, by simpa [sents] using hl, ?_⟩
            simpa [owing, wanted] using (List.sublist_append_left ws _).trans hsub
          · cases hs1
        | sent m =>
          simp only [follow] at hs1
          split at hs1
          · rename_i hc
            simp only [Option.some.injEq] at hs1
            subst hs1
            refine ⟨ws ++ [hd], by simpa [sents] using hl, ?_⟩
            simpa [owing, wanted, hc.1, hc.2.1] using hsub
          · cases hs1
        | _ => simp only [follow, Option.some.injEq] at hs1; exact hquiet hs1.symm rfl rfl
    obtain ⟨ws1, hl1, hs⟩ := hstep
    obtain ⟨ws', h1, h2⟩ := ih s1 s' ws1 (ms ++ sents [e]) (all ++ wanted [e]) h hl1 hs
    have hw : wanted (e :: es) = wanted [e] ++ wanted es := by
      rw [show e :: es = [e] ++ es from rfl]; simp only [wanted, List.filterMap_append]
    have hm : sents (e :: es) = sents [e] ++ sents es := by
      rw [show e :: es = [e] ++ es from rfl]; simp only [sents, List.filterMap_append]
    exact ⟨ws', by rw [h1, hm, List.append_assoc], by rw [hw, ← List.append_assoc]; exact h2⟩

/-- **C54**, for every history whatever the environment does: the loop follows the conversation `follow false`: one
request at a time, executed at most once and before its answer, at most one answer, none if it wants none.  So the
messages sent are answers to distinct requests, in request order. -/
theorem C54_at_most_one (cfg : Cfg) (st : St) (hp : st.pending = .none) (ops : List Op) :
    (monitor (follow false) none (run cfg st ops).2).isSome = true ∧
    ∃ ws : List Wire.Hdr, ws.Sublist (wanted (run cfg st ops).2) ∧ ws.length = (sents (run cfg st ops).2).length := by
  obtain ⟨s, h, _⟩ := follow_run (strict := false) cfg st ops (fun h => by cases h)
  have h0 : openReq st = none := by unfold openReq; rw [hp]
  rw [h0] at h
  refine ⟨by rw [h]; rfl, ?_⟩
  obtain ⟨ws, h1, h2⟩ := follow_loose_sound _ none s [] [] [] h rfl (List.Sublist.refl _)
  exact ⟨ws, (List.sublist_append_left ws _).trans (by simpa using h2), by simpa using h1⟩

/-- **C54**: if the socket takes what is sent, memory can be allocated, mappable regions have a descriptor and deferred
quiesces end well, then the messages sent are, one by one and in order, the replies to the requests that want one; only
the request being worked on or deferred can still be open, and it is not when the history is over without a pending
quiesce. -/
theorem C54_exactly_one (cfg : Cfg) (ht : TableOk cfg.tbl) (st : St) (hp : st.pending = .none) (ops : List Op)
    (hops : ∀ op ∈ ops, op.Fine) :
    (monitor (follow true) none (run cfg st ops).2).isSome = true ∧
    ∃ ws rest, wanted (run cfg st ops).2 = ws ++ rest ∧ List.Forall₂ Answers ws (sents (run cfg st ops).2) ∧
      rest.length ≤ 1 ∧
      (Completes cfg st ops → rest = match (run cfg st ops).1.pending with
        | .msg m => if m.hdr.noReply = false then [m.hdr] else []
        | _ => []) := by
  obtain ⟨s, h, hc⟩ := follow_run (strict := true) cfg st ops
    (fun _ => ⟨hops, ht, fun m hm => by rw [hp] at hm; cases hm⟩)
  have h0 : openReq st = none := by unfold openReq; rw [hp]
  rw [h0] at h
  refine ⟨by rw [h]; rfl, ?_⟩
  obtain ⟨ws, h1, h2⟩ := follow_strict_sound _ none s [] [] h .nil
  refine ⟨ws, owing s, by simpa [owing] using h1, by simpa using h2, ?_, fun hcm => ?_⟩
  · unfold owing
    cases s with
    | none => simp
    | some x => dsimp only; by_cases hx : x.2 ≠ .answered ∧ x.1.noReply = false
                · rw [if_pos hx]; simp
                · rw [if_neg hx]; simp
  · rw [hc hcm]
    unfold openReq
    cases (run cfg st ops).1.pending with
    | none => rfl
    | ctxReset => rfl
    | msg m => simp [owing]

/-! ### Witnesses and examples -/

section
open Demo

theorem req_real (id cmd flags : Nat) (body : List Byte) (fds : List Fd) (h1 : id < 65536) (h2 : cmd < 65536)
    (h3 : flags < 4294967296) (h4 : flags % 16 = 0) (h5 : body.length ≤ 1048576 + 16) (h6 : body ≠ [] ∨ cmd = 13)
    (h7 : fds.length ≤ 1024) : Real (req id cmd flags body fds) :=
  ⟨_, (congrArg Prod.fst (Wire.next_msg ⟨hdr id cmd flags body.length, body, fds⟩
    ⟨⟨h1, h2, by simp only [hdr, U32]; omega, h3, by simp only [hdr, U32]; omega⟩, h4, rfl, h5, h6, h7⟩ [] false)).symm⟩

/-- A mapping, an unmapping that the device defers, the loop polled meanwhile, the end of the quiesce, an interrupt
set-up that wants no reply. -/
def talk : List Op :=
  [.run env (req 1 2 0 (mapBody 0x100000) [5]), .run busy (req 2 3 0 (unmapBody 0x100000) []), .run env .again,
   .quiesced env 0, .run env (req 3 8 0x10 bindBody [6, 7])]

theorem talk_fine : ∀ op ∈ talk, op.Fine := by
  intro op hop
  simp only [talk, List.mem_cons, List.not_mem_nil, or_false] at hop
  rcases hop with rfl | rfl | rfl | rfl | rfl
  · exact ⟨fun _ => rfl, rfl, req_real _ _ _ _ _ (by decide) (by decide) (by decide) (by decide) (by decide) (by decide) (by decide)⟩
  · exact ⟨fun _ => rfl, rfl, req_real _ _ _ _ _ (by decide) (by decide) (by decide) (by decide) (by decide) (by decide) (by decide)⟩
  · exact ⟨fun _ => rfl, rfl, ⟨{ cells := [], closed := false, lim := [] }, rfl⟩⟩
  · exact ⟨fun _ => rfl, rfl, rfl⟩
  · exact ⟨fun _ => rfl, rfl, req_real _ _ _ _ _ (by decide) (by decide) (by decide) (by decide) (by decide) (by decide) (by decide)⟩

theorem table_ok : TableOk cfg.tbl := by
  intro r hr h
  simp only [cfg, List.mem_cons, List.mem_replicate] at hr
  rcases hr with rfl | ⟨_, rfl⟩ <;> exact absurd rfl h

set_option maxRecDepth 8000 in
example : ∃ ws, wanted (run cfg st talk).2 = ws ∧ List.Forall₂ Answers ws (sents (run cfg st talk).2) ∧ ws.length = 2 := by
  obtain ⟨_, ws, rest, h1, h2, _, h3⟩ := C54_exactly_one cfg table_ok st rfl talk talk_fine
  have : rest = [] := h3 ⟨by decide, by decide, by decide, by decide, by decide, trivial⟩
  subst this
  rw [List.append_nil] at h1
  have hl : (wanted (run cfg st talk).2).length = 2 := by decide
  exact ⟨_, rfl, h1 ▸ h2, hl⟩

/-- C54, the exception: a deferred quiesce that fails drops the request without an answer. -/
theorem C54_dropped : ∃ ops, (∀ op ∈ ops, ∃ e i n, op = .run e i ∧ Real i ∨ op = .quiesced env n) ∧
    Completes cfg st ops ∧ (run cfg st ops).1.pending = .none ∧
    (wanted (run cfg st ops).2).length = 1 ∧ sents (run cfg st ops).2 = [] := by
  refine ⟨[.run busy (req 2 3 0 (unmapBody 0x100000) []), .quiesced env 5], ?_, ⟨by decide, by decide, trivial⟩, rfl,
    by decide, by decide⟩
  intro op hop
  simp only [List.mem_cons, List.not_mem_nil, or_false] at hop
  rcases hop with rfl | rfl
  · exact ⟨_, _, 0, .inl ⟨rfl, req_real _ _ _ _ _ (by decide) (by decide) (by decide) (by decide) (by decide) (by decide) (by decide)⟩⟩
  · exact ⟨env, .again, _, .inr rfl⟩

/-- C54, another: without memory for the reply a region read gets no answer, although the connection stays up. -/
theorem C54_no_memory :
    let ops := [Op.run { env with alloc := false } (req 1 9 0 (enc 8 8 ++ enc 4 0 ++ enc 4 4) [])]
    Completes cfg st ops ∧ (run cfg st ops).1.conn = true ∧ (run cfg st ops).1.pending = .none ∧
    (wanted (run cfg st ops).2).length = 1 ∧ sents (run cfg st ops).2 = [] :=
  ⟨⟨by decide, trivial⟩, by decide, by decide, by decide, by decide⟩

end

/-! ## All events of a history -/

/-- A property of events that holds along every history: what has to be shown.  `good`: the inputs considered. -/
structure Closed (cfg : Cfg) (Q : Ev → Prop) (good : Wire.In → Prop) : Prop where
  inner : ∀ e : Ev, e.Inner → Q e
  freed : Q .freed
  detach : Q .detach
  ret : Q .ret
  lost : ∀ l, Q (.lost l)
  devQuiesced : ∀ e, Q (.devQuiesced e)
  gotReq : ∀ h body fds, good (.req h body fds) → Q (.got h fds)
  gotBad : ∀ h fds e, good (.bad h fds e) → Q (.got h fds)
  exec : ∀ h body fds, good (.req h body fds) → Q (.exec h)
  answer : ∀ env st m w err, w ∈ (Wire.reply env.snd m.hdr (Server.exec cfg env st m).out
    (Server.exec cfg env st m).outFds err).2 → Q (.sent w)
  refusal : ∀ (env : Env) h w err, w ∈ (Wire.reply env.snd h (.bytes []) [] err).2 → Q (.sent w)

variable {cfg : Cfg} {Q : Ev → Prop} {good : Wire.In → Prop}

theorem Closed.ofInner (H : Closed cfg Q good) {l : List Ev} (h : ∀ e ∈ l, e.Inner) : ∀ e ∈ l, Q e :=
  fun e he => H.inner e (h e he)

theorem all_append {l1 l2 : List Ev} (h1 : ∀ e ∈ l1, Q e) (h2 : ∀ e ∈ l2, Q e) : ∀ e ∈ l1 ++ l2, Q e :=
  fun e he => (List.mem_append.mp he).elim (h1 e) (h2 e)

theorem all_cons {e1 : Ev} {l2 : List Ev} (h1 : Q e1) (h2 : ∀ e ∈ l2, Q e) : ∀ e ∈ e1 :: l2, Q e :=
  fun e he => (List.mem_cons.mp he).elim (fun h => h ▸ h1) (h2 e)

theorem all_nil : ∀ e ∈ ([] : List Ev), Q e := fun _ h => by cases h

theorem Closed.resetQuiesced (H : Closed cfg Q good) (env : Env) (st : St) :
    ∀ e ∈ (Server.resetQuiesced cfg env st).evs, Q e := by
  unfold Server.resetQuiesced
  cases dropDma cfg st.dma with
  | err e => exact all_nil
  | fault f => exact all_nil
  | ok x =>
    obtain ⟨dma, ev1⟩ := x
    dsimp only
    have h1 := H.ofInner (inner_flatMap (inner_ofDma (q := st.quiesced)) ev1)
    have h2 := H.ofInner (inner_deviceReset cfg env { st with dma } .lostConn)
    cases Irq.reset cfg.irq (deviceReset cfg env { st with dma } .lostConn).1.irqs with
    | err e => exact all_append h1 h2
    | fault f => exact all_append h1 h2
    | ok y =>
      exact all_append (all_append (all_append h1 h2) (H.ofInner (inner_flatMap (inner_ofIrq (q := st.quiesced)) _)))
        (all_cons H.detach all_nil)

theorem Closed.resetCtx (H : Closed cfg Q good) (env : Env) (k : Nat) (st : St) :
    ∀ e ∈ (Server.resetCtx cfg env k st).evs, Q e := by
  unfold Server.resetCtx
  have hb := H.ofInner (inner_bracket (t := .quiesce) (c := .quiesce (env.quiesce k)) (q := st.quiesced))
  by_cases h : cfg.hasQuiesce = true ∧ st.pending = .none
  · rw [if_pos h]
    dsimp only
    cases hk : env.quiesce k with
    | none => rw [hk] at hb; exact all_append hb (H.resetQuiesced _ _)
    | some e =>
      rw [hk] at hb
      dsimp only
      by_cases he : e = EBUSY
      · rw [if_pos he]; exact hb
      · rw [if_neg he]; exact hb
  · rw [if_neg h]; exact H.resetQuiesced _ _

theorem Closed.doReply (H : Closed cfg Q good) (env : Env) (k : Nat) (st : St) (h : Wire.Hdr) (b : Wire.Body)
    (fds : List (Option Fd)) (err : Nat) (hs : ∀ w ∈ (Wire.reply env.snd h b fds (err % U32)).2, Q (.sent w)) :
    ∀ e ∈ (Server.doReply cfg env k st h b fds err).evs, Q e := by
  have hm : ∀ e ∈ (Wire.reply env.snd h b fds (err % U32)).2.map Ev.sent, Q e := by
    intro e he
    obtain ⟨w, hw, rfl⟩ := List.mem_map.mp he
    exact hs w hw
  unfold Server.doReply
  by_cases hn : h.noReply = true
  · rw [if_pos hn]; exact all_nil
  rw [if_neg hn]
  dsimp only
  cases (Wire.reply env.snd h b fds (err % U32)).1 with
  | ok u => exact hm
  | error e =>
    dsimp only
    by_cases he : e = ECONNRESET ∨ e = ENOMSG
    · rw [if_pos he]; exact all_append hm (H.resetCtx _ _ _)
    · rw [if_neg he]; exact hm

theorem Closed.refuse (H : Closed cfg Q good) (env : Env) (k : Nat) (st : St) (h : Wire.Hdr) (fds : List Fd) (err : Nat) :
    ∀ e ∈ (Server.refuse cfg env k st h fds err).evs, Q e := by
  have h1 := H.doReply env k st h (.bytes []) [] err (fun w hw => H.refusal env h w _ hw)
  unfold Server.refuse
  dsimp only
  by_cases hf : (Server.doReply cfg env k st h (.bytes []) [] err).res.isFault = true
  · rw [if_pos hf]; exact h1
  · rw [if_neg hf]
    exact all_append (all_append h1 (H.ofInner (inner_closes _))) (all_cons H.freed all_nil)

theorem Closed.handleRequest (H : Closed cfg Q good) (env : Env) (k : Nat) (st : St) (m : Msg)
    (hg : good (.req m.hdr m.body m.fds)) : ∀ e ∈ (Server.handleRequest cfg env k st m).evs, Q e := by
  have he := all_cons (H.exec _ _ _ hg) (H.ofInner (tame_exec cfg env st m).evs)
  have h1 := H.doReply env k (Server.exec cfg env st m).st m.hdr (Server.exec cfg env st m).out
    (Server.exec cfg env st m).outFds (replyErr (Server.exec cfg env st m).res) (fun w hw => H.answer env st m w _ hw)
  unfold Server.handleRequest
  dsimp only
  by_cases hd : (Server.exec cfg env st m).res.isFault = true
  · rw [if_pos hd]; exact he
  rw [if_neg hd]
  unfold finish
  dsimp only
  by_cases hf : (Server.doReply cfg env k (Server.exec cfg env st m).st m.hdr (Server.exec cfg env st m).out
    (Server.exec cfg env st m).outFds (replyErr (Server.exec cfg env st m).res)).res.isFault = true
  · rw [if_pos hf]; exact all_append he h1
  · rw [if_neg hf]
    exact all_append (all_append (all_append he h1) (H.ofInner (inner_closes _))) (all_cons H.freed all_nil)

/-- The message kept is one of the inputs. -/
def KeptGood (good : Wire.In → Prop) (st : St) : Prop := ∀ m, st.pending = .msg m → good (.req m.hdr m.body m.fds)

def Op.Good (good : Wire.In → Prop) : Op → Prop
  | .run _ i => good i
  | _ => True

theorem KeptGood.keeps {st st' : St} (h : KeptGood good st) (hk : Keeps st.pending st'.pending) : KeptGood good st' := by
  intro m hm
  rcases hk with e | e
  · exact h m (e ▸ hm)
  · rw [e] at hm; cases hm

theorem Closed.call (H : Closed cfg Q good) (st : St) (hk : KeptGood good st) (op : Op) (ho : op.Good good) :
    (∀ e ∈ (Server.call cfg st op).evs, Q e) ∧ KeptGood good (Server.call cfg st op).st := by
  cases op with
  | run env i =>
    unfold Server.call poll
    dsimp only
    by_cases hp : st.pending ≠ .none
    · rw [if_pos hp]; exact ⟨all_nil, hk⟩
    rw [if_neg hp]
    by_cases hn : st.conn = false
    · rw [if_pos hn]; exact ⟨all_nil, hk⟩
    rw [if_neg hn]
    cases i with
    | again => exact ⟨all_nil, hk⟩
    | failed e leak => exact ⟨all_cons (H.lost _) all_nil, hk⟩
    | lost e leak => exact ⟨all_cons (H.lost _) (H.resetCtx _ _ _), hk.keeps (resetCtx_keeps ..)⟩
    | bad h fds e => exact ⟨all_cons (H.gotBad _ _ _ ho) (H.refuse _ _ _ _ _ _), hk.keeps (refuse_keeps ..)⟩
    | req h body fds =>
      dsimp only
      have hg := H.gotReq _ _ _ ho
      unfold dispatch
      by_cases he : shouldExec st.mig h.cmd = false
      · rw [if_pos he]; exact ⟨all_cons hg (H.refuse _ _ _ _ _ _), hk.keeps (refuse_keeps ..)⟩
      rw [if_neg he]
      by_cases hq : needsQuiesce cfg st ⟨h, body, fds⟩ = true
      · rw [if_pos hq]
        dsimp only
        have hb := H.ofInner (inner_bracket (t := .quiesce) (c := .quiesce (env.quiesce 0)) (q := st.quiesced))
        cases hz : env.quiesce 0 with
        | some e =>
          rw [hz] at hb
          dsimp only
          by_cases hbz : e = EBUSY
          · rw [if_pos hbz]
            refine ⟨all_cons hg hb, fun m hm => ?_⟩
            dsimp only at hm
            cases hm
            exact ho
          · rw [if_neg hbz]; exact ⟨all_cons hg (all_append hb (H.refuse _ _ _ _ _ _)), hk.keeps (refuse_keeps ..)⟩
        | none =>
          rw [hz] at hb
          exact ⟨all_cons hg (all_append hb (H.handleRequest _ _ _ _ ho)),
            hk.keeps (handleRequest_keeps cfg env 1 { st with quiesced := true } ⟨h, body, fds⟩)⟩
      · rw [if_neg hq]
        exact ⟨all_cons hg (H.handleRequest _ _ _ _ ho), hk.keeps (handleRequest_keeps cfg env 0 st ⟨h, body, fds⟩)⟩
  | quiesced env e =>
    unfold Server.call deviceQuiesced
    dsimp only
    by_cases hq : cfg.hasQuiesce = false ∨ st.pending = .none
    · rw [if_pos hq]; exact ⟨all_nil, hk⟩
    rw [if_neg hq]
    refine ⟨all_cons (H.devQuiesced _) ?_, fun m hm => by cases hm⟩
    by_cases he : e = 0
    · rw [if_pos he]
      cases hp : st.pending with
      | none => rw [hp] at hq; exact absurd (.inr rfl) hq
      | ctxReset => exact H.resetQuiesced _ _
      | msg m => exact H.handleRequest _ _ _ _ (hk m hp)
    · rw [if_neg he]
      cases hp : st.pending with
      | none => exact all_nil
      | ctxReset => exact all_nil
      | msg m => exact all_append (H.ofInner (inner_closes _)) (all_cons H.freed all_nil)
  | transfer env lost =>
    unfold Server.call transfer
    dsimp only
    by_cases hp : st.pending ≠ .none
    · rw [if_pos hp]; exact ⟨all_nil, hk⟩
    rw [if_neg hp]
    by_cases hl : lost = true ∧ st.conn = true
    · rw [if_pos hl]; exact ⟨H.resetCtx _ _ _, hk.keeps (resetCtx_keeps ..)⟩
    · rw [if_neg hl]; exact ⟨all_nil, hk⟩
  | attach n =>
    unfold Server.call attach
    dsimp only
    by_cases hp : st.conn = true
    · rw [if_pos hp]; exact ⟨all_nil, hk⟩
    · rw [if_neg hp]; cases n <;> exact ⟨all_nil, hk⟩
  | config f => exact ⟨all_nil, hk⟩
  | mark sgl =>
    unfold Server.call
    cases st.dma with
    | none => exact ⟨all_nil, hk⟩
    | some c => dsimp only; cases Dma.sglMark c sgl <;> exact ⟨all_nil, hk⟩
  | trigger wr sub =>
    exact ⟨H.ofInner (inner_flatMap (inner_ofIrq (q := st.quiesced)) _), hk⟩

theorem Closed.run (H : Closed cfg Q good) (st : St) (hk : KeptGood good st) (ops : List Op)
    (ho : ∀ op ∈ ops, op.Good good) : ∀ e ∈ (Server.run cfg st ops).2, Q e := by
  induction ops generalizing st with
  | nil => exact all_nil
  | cons op ops ih =>
    obtain ⟨h1, h2⟩ := H.call st hk op (ho op (List.mem_cons_self ..))
    unfold Server.run
    dsimp only
    by_cases hf : (Server.call cfg st op).res.isFault = true
    · rw [if_pos hf]; exact h1
    · rw [if_neg hf]
      exact all_append h1 (all_cons H.ret (ih _ h2 (fun o h => ho o (List.mem_cons_of_mem _ h))))

end Verif.Server
