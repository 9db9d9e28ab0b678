import Verif.Server.Gate
import Verif.Server.Reset

/-!
# What one call does, as seen from outside

Every call into the library that does not end abnormally leaves the tables alone, refuses a request, executes one request
and answers it, or takes the connection down.  The theorems about what a client may conclude from the replies it got
(`Ledger`) rest on this. -/

namespace Verif.Server
open Verif
open Verif.Dma (Fd)

/-- Error numbers: `errno` is positive and fits the field of the reply. -/
def Errno (e : Nat) : Prop := 0 < e ∧ e < U32

/-- The transport takes what it is given, memory is available, and callbacks that fail set `errno`. -/
structure Env.Fair (env : Env) : Prop where
  snd : Wire.Healthy env.snd
  alloc : env.alloc = true
  quiesce : ∀ k e, env.quiesce k = some e → Errno e
  mmap : ∀ len off e, env.os.mmap len off = .error e → Errno e

/-- Fair calls; requests are what the transport delivers. -/
def Op.Fair : Op → Prop
  | .run env i => env.Fair ∧ Real i
  | .quiesced env _ => env.Fair
  | _ => True

/-- The request a call may answer: the one just received, or the one waiting for the device. -/
def Op.subject (st : St) : Op → Option Msg
  | .run _ (.req h body fds) => some ⟨h, body, fds⟩
  | .quiesced _ _ => match st.pending with
    | .msg m => some m
    | _ => none
  | _ => none

/-- The four tables of the device. -/
structure Same4 (a b : St) : Prop where
  mig : a.mig = b.mig
  dma : a.dma = b.dma
  irqs : a.irqs = b.irqs
  pci : a.pci = b.pci

theorem Same4.refl (a : St) : Same4 a a := ⟨rfl, rfl, rfl, rfl⟩

/-- What a client reads off a reply of whatever length: 16 bytes of header, then `l`; the error flag (bit 5). -/
def Tells (w : Wire.Sent) (err : Nat) (l : List Byte) : Prop :=
  (∃ hb : List Byte, hb.length = 16 ∧ w.bytes = hb ++ l) ∧
    (Wire.Hdr.ofBytes w.bytes).flags.testBit 5 = decide (err ≠ 0)

/-- What came of a call. -/
inductive Turn (cfg : Cfg) (st : St) (op : Op) (o : Out) : Prop where
  /-- nothing said, nothing changed -/
  | idle : Same4 o.st st → sents o.evs = [] → .detach ∉ o.evs → Turn cfg st op o
  /-- a message that is not a request was turned down -/
  | bad : Same4 o.st st → op.subject st = none → .detach ∉ o.evs → Turn cfg st op o
  /-- the request was turned down -/
  | refused (m : Msg) (e : Nat) : Same4 o.st st → op.subject st = some m → .detach ∉ o.evs → Errno e →
      (m.hdr.noReply = true → sents o.evs = []) →
      (m.hdr.noReply = false → ∃ w, sents o.evs = [w] ∧ Wire.IsReply m.hdr e [] w.bytes) → Turn cfg st op o
  /-- the request was executed -/
  | executed (env : Env) (q : Bool) (m : Msg) (l : List Byte) : env.Fair →
      op.subject st = some m → op.env? = some env →
      (exec cfg env { st with quiesced := q } m).res.isFault = false →
      Same4 o.st (exec cfg env { st with quiesced := q } m).st → .detach ∉ o.evs →
      (exec cfg env { st with quiesced := q } m).out = .bytes l →
      (m.hdr.noReply = true → sents o.evs = []) →
      (m.hdr.noReply = false → ∃ w, sents o.evs = [w] ∧
        Tells w (replyErr (exec cfg env { st with quiesced := q } m).res % U32) l ∧
        (l.length + 16 < U32 →
          Wire.IsReply m.hdr (replyErr (exec cfg env { st with quiesced := q } m).res % U32) l w.bytes)) →
      Turn cfg st op o
  /-- the client is gone -/
  | reset (env : Env) (q : Bool) : .detach ∈ o.evs → (op.env? = some env) →
      Same4 o.st (resetQuiesced cfg env { st with quiesced := q }).st → Turn cfg st op o
  /-- the device changed its config space -/
  | config (f : Pci.Mem → Pci.Mem) : op = .config f → o.st = { st with pci := { st.pci with mem := f st.pci.mem } } →
      o.evs = [] → Turn cfg st op o
  /-- the device marked pages -/
  | mark (sgl : List Dma.Sg) (c c' : Dma.Ctl) : op = .mark sgl → st.dma = some c → Dma.sglMark c sgl = .ok c' →
      o.st = { st with dma := some c' } → o.evs = [] → Turn cfg st op o

/-! ## Events of handlers -/

theorem inner_quiet {l : List Ev} (h : ∀ e ∈ l, e.Inner) : sents l = [] ∧ .detach ∉ l := by
  refine ⟨?_, fun hm => h _ hm⟩
  unfold sents
  rw [List.filterMap_eq_nil_iff]
  intro e he
  have := h e he
  cases e <;> first | rfl | exact this.elim

theorem sents_cons {e : Ev} (h : ∀ w, e ≠ .sent w) (l : List Ev) : sents (e :: l) = sents l := by
  unfold sents
  rw [List.filterMap_cons]
  cases e <;> first | rfl | exact absurd rfl (h _)

theorem quiesce_quiet (r : Option Nat) (q : Bool) :
    sents (bracket .quiesce (.quiesce r) q) = [] ∧ .detach ∉ bracket .quiesce (.quiesce r) q :=
  inner_quiet inner_bracket

/-- A refusal on a healthy transport. -/
theorem refuse_turn (cfg : Cfg) (env : Env) (k : Nat) (st : St) (h : Wire.Hdr) (hf : h.Fits) (fds : List Fd) (err : Nat)
    (he : err < U32) (hs : Wire.Healthy env.snd) :
    (refuse cfg env k st h fds err).st = st ∧ .detach ∉ (refuse cfg env k st h fds err).evs ∧
      (h.noReply = true → sents (refuse cfg env k st h fds err).evs = []) ∧
      (h.noReply = false → ∃ w, sents (refuse cfg env k st h fds err).evs = [w] ∧ Wire.IsReply h err [] w.bytes) := by
  obtain ⟨ws, h1, h2, h3⟩ := doReply_ok cfg env k st h hf err he hs
  obtain ⟨c1, c2⟩ := inner_quiet (inner_closes (fds.map some))
  have hev : (refuse cfg env k st h fds err).evs = ws.map Ev.sent ++ closes (fds.map some) ++ [.freed] := by
    unfold refuse
    dsimp only
    rw [h1]
    simp [Res.isFault]
  have hse : sents (refuse cfg env k st h fds err).evs = ws := by
    rw [hev, sents_append, sents_append, sents_map, c1]; simp [sents]
  refine ⟨?_, ?_, ?_, ?_⟩
  · unfold refuse
    dsimp only
    rw [h1]
    simp [Res.isFault]
  · rw [hev]
    simp only [List.mem_append, List.mem_map, List.mem_singleton, not_or]
    exact ⟨⟨(by rintro ⟨_, _, h⟩; cases h), c2⟩, by simp⟩
  · intro hn; rw [hse]; exact h2 hn
  · intro hn
    obtain ⟨w, hw, hr⟩ := h3 hn
    exact ⟨w, by rw [hse]; exact hw, hr⟩

theorem reply_tells (snd : Wire.Send) (hs : Wire.Healthy snd) (h : Wire.Hdr) (hf : h.Fits) (l : List Byte) (fds : List Fd)
    {err : Nat} (he : err < U32) {w : Wire.Sent} (hw : Wire.reply snd h (.bytes l) (fds.map some) err = (.ok (), [w])) :
    Tells w err l := by
  have hx : Wire.reply snd h (.bytes l) (fds.map some) err =
      (.ok (), [⟨(Wire.mkHdr h.id h.cmd true l.length err).bytes ++ l, fds⟩]) := by
    unfold Wire.reply Wire.sendIovec
    dsimp only [Wire.Body.len]
    unfold Wire.sendIovec.go
    have h1 : (fds.map some).any Option.isNone = false := by simp
    have h2 : (fds.map some).filterMap id = fds := by simp
    have h3 : (Wire.mkHdr h.id h.cmd true l.length err).bytes.length = 16 := Wire.Hdr.bytes_length _
    have h4 : (Wire.mkHdr h.id h.cmd true l.length err).size ≤ 16 + l.length := by
      simp only [Wire.mkHdr, Wire.HDR]; exact Nat.mod_le _ _
    rw [h1, if_neg (by simp)]
    dsimp only
    rw [hs]
    dsimp only
    rw [if_neg (by rw [List.length_append, h3]; omega), h2, List.take_length]
  rw [hx] at hw
  simp only [Prod.mk.injEq, List.cons.injEq, and_true, true_and] at hw
  subst hw
  refine ⟨⟨_, Wire.Hdr.bytes_length _, rfl⟩, ?_⟩
  rw [Wire.Hdr.ofBytes_bytes _ (Wire.mkHdr_fits h.id h.cmd true l.length err hf.id hf.cmd he) l]
  by_cases h0 : err = 0
  · simp only [Wire.mkHdr, h0, Wire.TYPE_REPLY]; decide
  · simp [Wire.mkHdr, h0, Wire.TYPE_REPLY, Wire.F_ERROR]; decide

theorem refuse_mod (cfg : Cfg) (env : Env) (k : Nat) (st : St) (h : Wire.Hdr) (fds : List Fd) (err : Nat) :
    refuse cfg env k st h fds err = refuse cfg env k st h fds (err % U32) := by
  unfold refuse doReply
  rw [Nat.mod_mod]

/-- Execution of a request on a healthy transport. -/
theorem handle_turn (cfg : Cfg) (ht : TableOk cfg.tbl) (env : Env) (hf : env.Fair) (k : Nat) (st : St) (m : Msg)
    (hm : m.hdr.Fits) (hno : (handleRequest cfg env k st m).res.isFault = false) :
    ∃ l, (exec cfg env st m).res.isFault = false ∧ (handleRequest cfg env k st m).st = (exec cfg env st m).st ∧
      .detach ∉ (handleRequest cfg env k st m).evs ∧ (exec cfg env st m).out = .bytes l ∧
      (m.hdr.noReply = true → sents (handleRequest cfg env k st m).evs = []) ∧
      (m.hdr.noReply = false → ∃ w, sents (handleRequest cfg env k st m).evs = [w] ∧
        Tells w (replyErr (exec cfg env st m).res % U32) l ∧
        (l.length + 16 < U32 → Wire.IsReply m.hdr (replyErr (exec cfg env st m).res % U32) l w.bytes)) := by
  have hno' : (exec cfg env st m).res.isFault = false := by
    cases hd : (exec cfg env st m).res.isFault with
    | false => rfl
    | true =>
      unfold handleRequest at hno
      dsimp only at hno
      rw [if_pos hd] at hno
      rw [hd] at hno
      cases hno
  obtain ⟨l, hl⟩ := exec_bytes cfg env st m hf.alloc
  obtain ⟨fds, hfd⟩ := (exec_fds cfg env st m).2.2 ht
  obtain ⟨e1, e2⟩ := inner_quiet (tame_exec cfg env st m).evs
  obtain ⟨c1, c2⟩ := inner_quiet (inner_closes (exec cfg env st m).left)
  have key : ∃ ws : List Wire.Sent, doReply cfg env k (exec cfg env st m).st m.hdr (exec cfg env st m).out
      (exec cfg env st m).outFds (replyErr (exec cfg env st m).res) =
        { st := (exec cfg env st m).st, res := .ok (), evs := ws.map Ev.sent } ∧
      (m.hdr.noReply = true → ws = []) ∧
      (m.hdr.noReply = false → ∃ w, ws = [w] ∧ Tells w (replyErr (exec cfg env st m).res % U32) l ∧
        (l.length + 16 < U32 → Wire.IsReply m.hdr (replyErr (exec cfg env st m).res % U32) l w.bytes)) := by
    unfold doReply
    by_cases hn : m.hdr.noReply = true
    · rw [if_pos hn]; exact ⟨[], rfl, fun _ => rfl, fun h' => by rw [hn] at h'; cases h'⟩
    rw [if_neg hn, hl, hfd]
    obtain ⟨w, g1, _, g3, g4⟩ := reply_ok env.snd hf.snd m.hdr hm l fds (replyErr (exec cfg env st m).res % U32)
      (Nat.mod_lt _ (by decide))
    rw [g1]
    exact ⟨[w], rfl, fun h' => absurd h' hn, fun _ => ⟨w, rfl, reply_tells env.snd hf.snd m.hdr hm l fds (Nat.mod_lt _ (by decide)) g1, g4⟩⟩
  obtain ⟨ws, k1, k2, k3⟩ := key
  have hx : handleRequest cfg env k st m = { st := (exec cfg env st m).st, res := .ok (), evs :=
      (.exec m.hdr :: (exec cfg env st m).evs ++ ws.map Ev.sent ++ closes (exec cfg env st m).left ++ [.freed]) } := by
    unfold handleRequest finish
    dsimp only
    rw [if_neg (by rw [hno']; simp), k1]
    rfl
  have hse : sents (handleRequest cfg env k st m).evs = ws := by
    rw [hx]
    dsimp only
    rw [sents_append, sents_append, sents_append, sents_cons (by simp), e1, sents_map, c1]
    simp [sents]
  refine ⟨l, hno', by rw [hx], ?_, hl, ?_, ?_⟩
  · rw [hx]
    simp only [List.mem_append, List.mem_cons, List.mem_map, not_or]
    exact ⟨⟨⟨⟨by simp, e2⟩, (by rintro ⟨_, _, h⟩; cases h)⟩, c2⟩, by simp⟩
  · intro hn; rw [hse]; exact k2 hn
  · intro hn
    obtain ⟨w, hw, hr⟩ := k3 hn
    exact ⟨w, by rw [hse]; exact hw, hr⟩

section
variable {cfg : Cfg} (hi : cfg.irq.Ok) (ht : TableOk cfg.tbl) {dma : Option (Nat × Nat)}

/-- Losing the connection. -/
theorem resetCtx_turn (hi : cfg.irq.Ok) {st : St} (hr : Reached cfg dma st.dma st.irqs) (env : Env) (k : Nat) :
    (Same4 (resetCtx cfg env k st).st st ∧ sents (resetCtx cfg env k st).evs = [] ∧ .detach ∉ (resetCtx cfg env k st).evs) ∨
    (.detach ∈ (resetCtx cfg env k st).evs ∧ Same4 (resetCtx cfg env k st).st (resetQuiesced cfg env st).st) := by
  obtain ⟨ev3, hx⟩ := resetQuiesced_exact hi env hr
  have hd : .detach ∈ (resetQuiesced cfg env st).evs := by rw [hx]; simp
  unfold resetCtx
  by_cases hq : cfg.hasQuiesce = true ∧ st.pending = .none
  · rw [if_pos hq]
    dsimp only
    obtain ⟨b1, b2⟩ := quiesce_quiet (env.quiesce k) st.quiesced
    revert b1 b2
    generalize bracket .quiesce (.quiesce (env.quiesce k)) st.quiesced = br
    intro b1 b2
    cases env.quiesce k with
    | none => exact .inr ⟨List.mem_append_right _ hd, Same4.refl _⟩
    | some e =>
      dsimp only
      by_cases he : e = EBUSY
      · rw [if_pos he]; exact .inl ⟨⟨rfl, rfl, rfl, rfl⟩, b1, b2⟩
      · rw [if_neg he]; exact .inl ⟨⟨rfl, rfl, rfl, rfl⟩, b1, b2⟩
  · rw [if_neg hq]; exact .inr ⟨hd, Same4.refl _⟩

include hi ht in
/-- Every call that does not end abnormally is one of these. -/
theorem call_turn {st : St} (hr : Reached cfg dma st.dma st.irqs) (hk : KeptGood Real st) (op : Op) (ho : op.Fair)
    (hno : (call cfg st op).res.isFault = false) : Turn cfg st op (call cfg st op) := by
  cases op with
  | attach n =>
    refine .idle ?_ ?_ ?_ <;> (simp only [call]; unfold attach; split) <;>
      first | exact Same4.refl _ | rfl | simp | (cases n <;> first | exact ⟨rfl, rfl, rfl, rfl⟩ | rfl | simp)
  | config f => exact .config f rfl rfl rfl
  | mark sgl =>
    simp only [call] at hno ⊢
    cases hd : st.dma with
    | none => rw [hd] at hno; cases hno
    | some c =>
      rw [hd] at hno
      dsimp only at hno ⊢
      cases hs : Dma.sglMark c sgl with
      | ok c' => exact .mark sgl c c' rfl hd hs rfl rfl
      | err e => exact .idle (Same4.refl _) rfl (by simp)
      | fault f => rw [hs] at hno; cases hno
  | trigger wr sub =>
    obtain ⟨h1, h2⟩ := inner_quiet (inner_flatMap (inner_ofIrq (q := st.quiesced)) (Irq.trigger wr st.irqs sub).2)
    exact .idle (Same4.refl _) h1 h2
  | transfer env lost =>
    simp only [call] at hno ⊢
    unfold transfer at hno ⊢
    by_cases hp : st.pending ≠ .none
    · rw [if_pos hp] at hno; cases hno
    rw [if_neg hp] at hno ⊢
    by_cases hl : lost = true ∧ st.conn = true
    · rw [if_pos hl] at hno ⊢
      rcases resetCtx_turn (cfg := cfg) hi hr env 0 with ⟨h1, h2, h3⟩ | ⟨h1, h2⟩
      · exact .idle h1 h2 h3
      · exact .reset env st.quiesced h1 rfl h2
    · rw [if_neg hl]; exact .idle (Same4.refl _) rfl (by simp)
  | quiesced env e =>
    simp only [call] at hno ⊢
    unfold deviceQuiesced at hno ⊢
    by_cases hp : cfg.hasQuiesce = false ∨ st.pending = .none
    · rw [if_pos hp]; exact .idle (Same4.refl _) rfl (by simp)
    rw [if_neg hp] at hno ⊢
    obtain ⟨mig, dm, irqs, pci, conn, pending, q, mf, mx⟩ := st
    by_cases he : e = 0
    · subst he
      simp only [if_true] at hno ⊢
      cases pending with
      | none => exact absurd (.inr rfl) hp
      | msg m =>
        have hm : m.hdr.Fits := (real_fits (hk m rfl)).1 _ _ _ rfl
        obtain ⟨l, g1, g2, g3, g4, g5, g6⟩ := handle_turn cfg ht env ho 0
          ⟨mig, dm, irqs, pci, conn, .msg m, true, mf, mx⟩ m hm hno
        refine .executed env true m l ho rfl rfl g1 ?_ ?_ g4 ?_ ?_
        · dsimp only; exact ⟨by rw [g2], by rw [g2], by rw [g2], by rw [g2]⟩
        · dsimp only; simp only [List.mem_cons, not_or]; exact ⟨by simp, g3⟩
        · intro hn; dsimp only; rw [sents_cons (by simp)]; exact g5 hn
        · intro hn; dsimp only; rw [sents_cons (by simp)]; exact g6 hn
      | ctxReset =>
        obtain ⟨ev3, hx⟩ := resetQuiesced_exact hi env (st := ⟨mig, dm, irqs, pci, conn, .ctxReset, true, mf, mx⟩) hr
        refine .reset env true ?_ rfl ⟨rfl, rfl, rfl, rfl⟩
        dsimp only
        rw [hx]
        simp
    · simp only [if_neg he]
      cases pending with
      | none => exact absurd (.inr rfl) hp
      | msg m =>
        obtain ⟨c1, c2⟩ := inner_quiet (inner_closes (m.fds.map some))
        refine .idle ⟨rfl, rfl, rfl, rfl⟩ ?_ ?_
        · dsimp only; rw [sents_cons (by simp), sents_append, c1]; rfl
        · dsimp only; simp [c2]
      | ctxReset => exact .idle ⟨rfl, rfl, rfl, rfl⟩ rfl (by simp)
  | run env i =>
    obtain ⟨hf, hreal⟩ := ho
    simp only [call] at hno ⊢
    unfold poll at hno ⊢
    by_cases hp : st.pending ≠ .none
    · rw [if_pos hp]; exact .idle (Same4.refl _) rfl (by simp)
    rw [if_neg hp] at hno ⊢
    by_cases hc : st.conn = false
    · rw [if_pos hc]; exact .idle (Same4.refl _) rfl (by simp)
    rw [if_neg hc] at hno ⊢
    cases i with
    | again => exact .idle (Same4.refl _) rfl (by simp)
    | lost e leak =>
      dsimp only at hno ⊢
      rcases resetCtx_turn (cfg := cfg) hi hr env 0 with ⟨h1, h2, h3⟩ | ⟨h1, h2⟩
      · refine .idle h1 ?_ ?_
        · dsimp only; rw [sents_cons (by simp)]; exact h2
        · dsimp only; simp only [List.mem_cons, not_or]; exact ⟨by simp, h3⟩
      · exact .reset env st.quiesced (List.mem_cons_of_mem _ h1) rfl h2
    | failed e leak => exact .idle (Same4.refl _) rfl (by simp)
    | bad h fds e =>
      dsimp only at hno ⊢
      obtain ⟨r1, r2, _, _⟩ := refuse_turn cfg env 0 st h ((real_fits hreal).2 _ _ _ rfl) fds (e % U32)
        (Nat.mod_lt _ (by decide)) hf.snd
      rw [← refuse_mod] at r1 r2
      refine .bad ⟨by rw [r1], by rw [r1], by rw [r1], by rw [r1]⟩ rfl ?_
      simp only [List.mem_cons, not_or]; exact ⟨by simp, r2⟩
    | req h body fds =>
      dsimp only at hno ⊢
      have hm : h.Fits := (real_fits hreal).1 _ _ _ rfl
      unfold dispatch at hno ⊢
      by_cases hsh : shouldExec st.mig h.cmd = false
      · simp only [if_pos hsh] at hno ⊢
        obtain ⟨r1, r2, r3, r4⟩ := refuse_turn cfg env 0 st h hm fds EINVAL (by decide) hf.snd
        refine .refused ⟨h, body, fds⟩ EINVAL ⟨by rw [r1], by rw [r1], by rw [r1], by rw [r1]⟩ rfl ?_
          ⟨by decide, by decide⟩ ?_ ?_
        · simp only [List.mem_cons, not_or]; exact ⟨by simp, r2⟩
        · intro hn; dsimp only; rw [sents_cons (by simp)]; exact r3 hn
        · intro hn; dsimp only; rw [sents_cons (by simp)]; exact r4 hn
      simp only [if_neg hsh] at hno ⊢
      by_cases hq : needsQuiesce cfg st ⟨h, body, fds⟩ = true
      · simp only [if_pos hq] at hno ⊢
        obtain ⟨b1, b2⟩ := quiesce_quiet (env.quiesce 0) st.quiesced
        revert b1 b2
        generalize bracket .quiesce (.quiesce (env.quiesce 0)) st.quiesced = br at hno ⊢
        intro b1 b2
        cases hqe : env.quiesce 0 with
        | some e =>
          rw [hqe] at hno
          dsimp only at hno ⊢
          by_cases he : e = EBUSY
          · simp only [if_pos he] at hno ⊢
            refine .idle ⟨rfl, rfl, rfl, rfl⟩ ?_ ?_
            · dsimp only; rw [sents_cons (by simp)]; exact b1
            · simp only [List.mem_cons, not_or]; exact ⟨by simp, b2⟩
          · simp only [if_neg he] at hno ⊢
            have hE := hf.quiesce 0 e hqe
            obtain ⟨r1, r2, r3, r4⟩ := refuse_turn cfg env 1 st h hm fds e hE.2 hf.snd
            refine .refused ⟨h, body, fds⟩ e ⟨by rw [r1], by rw [r1], by rw [r1], by rw [r1]⟩ rfl ?_ hE ?_ ?_
            · simp only [List.mem_cons, List.mem_append, not_or]; exact ⟨by simp, b2, r2⟩
            · intro hn; dsimp only; rw [sents_cons (by simp), sents_append, b1]; exact r3 hn
            · intro hn; dsimp only; rw [sents_cons (by simp), sents_append, b1]; exact r4 hn
        | none =>
          rw [hqe] at hno
          dsimp only at hno ⊢
          obtain ⟨l, g1, g2, g3, g4, g5, g6⟩ := handle_turn cfg ht env hf 1 { st with quiesced := true }
            ⟨h, body, fds⟩ hm hno
          refine .executed env true ⟨h, body, fds⟩ l hf rfl rfl g1 ?_ ?_ g4 ?_ ?_
          · exact ⟨by rw [g2], by rw [g2], by rw [g2], by rw [g2]⟩
          · simp only [List.mem_cons, List.mem_append, not_or]; exact ⟨by simp, b2, g3⟩
          · intro hn; dsimp only; rw [sents_cons (by simp), sents_append, b1]; exact g5 hn
          · intro hn; dsimp only; rw [sents_cons (by simp), sents_append, b1]; exact g6 hn
      · simp only [if_neg hq] at hno ⊢
        obtain ⟨l, g1, g2, g3, g4, g5, g6⟩ := handle_turn cfg ht env hf 0 st ⟨h, body, fds⟩ hm hno
        refine .executed env st.quiesced ⟨h, body, fds⟩ l hf rfl rfl g1 ?_ ?_ g4 ?_ ?_
        · exact ⟨by rw [g2], by rw [g2], by rw [g2], by rw [g2]⟩
        · simp only [List.mem_cons, not_or]; exact ⟨by simp, g3⟩
        · intro hn; dsimp only; rw [sents_cons (by simp)]; exact g5 hn
        · intro hn; dsimp only; rw [sents_cons (by simp)]; exact g6 hn

end

end Verif.Server
