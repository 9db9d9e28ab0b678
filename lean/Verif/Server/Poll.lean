import Verif.Server.Broken
import Verif.Server.Loop
import Verif.Wire.Life

/-!
# C107: the descriptor to wait on

`vfu_get_poll_fd` gives the descriptor an application waits on.  "The file descriptor may change after a successful
vfu_attach_ctx(), or on receiving ENOTCONN error message from vfu_run_ctx()" (`include/libvfio-user.h:142-150`).  Here the context
(`Server.Model`) and the descriptors of its transport (`Wire.Life`) run together. -/

namespace Verif.Server
open Verif
open Verif.Dma (Fd)

/-! ## When a connection ends -/

/-- Sending can fail in a way the library takes for the end of the connection: `sendmsg` says so, or takes less than all. -/
def Drops (snd : Wire.Send) : Prop :=
  ∃ n, snd n = .error Wire.EPIPE ∨ snd n = .error ECONNRESET ∨ snd n = .error ENOMSG ∨ ∃ k < n, snd n = .ok k

theorem drops_of_reply {snd : Wire.Send} {h : Wire.Hdr} {b : Wire.Body} {fds : List (Option Fd)} {err e : Nat}
    (hr : (Wire.reply snd h b fds err).1 = .error e) (he : e = ECONNRESET ∨ e = ENOMSG) : Drops snd := by
  have key : ∀ (hd : Wire.Hdr) (l : List Byte), hd.size ≤ 16 + l.length →
      (Wire.sendIovec.go snd hd l fds).1 = .error e → Drops snd := by
    intro hd l hs hg
    unfold Wire.sendIovec.go at hg
    by_cases hb : fds.any Option.isNone = true
    · rw [if_pos hb] at hg
      cases hg
      rcases he with h | h <;> exact absurd h (by decide)
    rw [if_neg hb] at hg
    dsimp only at hg
    have hlen : (hd.bytes ++ l).length = 16 + l.length := by
      simp [Wire.Hdr.bytes, enc_length]; omega
    generalize hn : (hd.bytes ++ l).length = n at hg hlen
    cases hsn : snd n with
    | error x =>
      rw [hsn] at hg
      dsimp only at hg
      by_cases hx : x = Wire.EPIPE
      · exact ⟨n, .inl (by rw [hsn, hx])⟩
      · rw [if_neg hx] at hg
        cases hg
        rcases he with rfl | rfl
        · exact ⟨n, .inr (.inl hsn)⟩
        · exact ⟨n, .inr (.inr (.inl hsn))⟩
    | ok k =>
      rw [hsn] at hg
      dsimp only at hg
      by_cases hk : k < hd.size
      · exact ⟨n, .inr (.inr (.inr ⟨k, by omega, hsn⟩))⟩
      · rw [if_neg hk] at hg; cases hg
  have hsz : ∀ n, (Wire.mkHdr h.id h.cmd true n err).size ≤ 16 + n := fun n => Nat.mod_le _ _
  unfold Wire.reply Wire.sendIovec at hr
  cases b with
  | bytes l => exact key _ l (hsz _) hr
  | null n =>
    cases n with
    | zero => exact key _ [] (hsz 0) hr
    | succ n =>
      dsimp only at hr
      cases hr
      rcases he with h | h <;> exact absurd h (by decide)

/-- A part of a call: the connection is closed if and only if the events say so, and then the part succeeds. -/
structure Parts (st : St) (o : Out) : Prop where
  conn : o.st.conn = (st.conn && decide (Ev.detach ∉ o.evs))
  res : Ev.detach ∈ o.evs → o.res = .ok ()

theorem Parts.same {st : St} {o : Out} (hc : o.st.conn = st.conn) (he : Ev.detach ∉ o.evs) : Parts st o :=
  ⟨by rw [hc]; simp [he], fun h => absurd h he⟩

theorem parts_resetQuiesced (cfg : Cfg) (env : Env) (st : St) : Parts st (resetQuiesced cfg env st) := by
  unfold resetQuiesced
  cases dropDma cfg st.dma with
  | err e => exact .same rfl (by simp)
  | fault f => exact .same rfl (by simp)
  | ok x =>
    obtain ⟨dma, ev1⟩ := x
    dsimp only
    have h1 : Ev.detach ∉ ev1.flatMap (ofDma st.quiesced) := (inner_quiet (inner_flatMap inner_ofDma _)).2
    have h2 : Ev.detach ∉ (deviceReset cfg env { st with dma } .lostConn).2.2 := (inner_quiet (inner_deviceReset cfg env { st with dma } .lostConn)).2
    have h3 : (deviceReset cfg env { st with dma } .lostConn).1.conn = st.conn := by
      unfold deviceReset
      by_cases hr : cfg.hasReset = true
      · rw [if_pos hr]; dsimp only; cases env.resetCb .lostConn <;> rfl
      · rw [if_neg hr]
    generalize deviceReset cfg env { st with dma } .lostConn = r at h2 h3
    cases Irq.reset cfg.irq r.1.irqs with
    | err e => exact .same h3 (by simp [h1, h2])
    | fault f => exact .same h3 (by simp [h1, h2])
    | ok y => exact ⟨by simp, fun _ => rfl⟩

theorem quiesce_silent (r : Option Nat) (q : Bool) : Ev.detach ∉ bracket .quiesce (.quiesce r) q :=
  (inner_quiet inner_bracket).2

/-- Events before, without the end of the connection. -/
theorem Parts.after {st : St} {o : Out} (h : Parts st o) {l : List Ev} (hl : Ev.detach ∉ l) :
    Parts st { o with evs := l ++ o.evs } :=
  ⟨by rw [h.conn]; simp [hl], fun hd => h.res (by simpa [hl] using hd)⟩

theorem Parts.before {st : St} {o : Out} (h : Parts st o) {l : List Ev} (hl : Ev.detach ∉ l) :
    Parts st { o with evs := o.evs ++ l } :=
  ⟨by rw [h.conn]; simp [hl], fun hd => h.res (by simpa [hl] using hd)⟩

theorem parts_resetCtx (cfg : Cfg) (env : Env) (k : Nat) (st : St) : Parts st (resetCtx cfg env k st) := by
  have h0 := parts_resetQuiesced cfg env st
  unfold resetCtx
  by_cases h : cfg.hasQuiesce = true ∧ st.pending = .none
  · rw [if_pos h]
    dsimp only
    have hb := quiesce_silent (env.quiesce k) st.quiesced
    generalize bracket .quiesce (.quiesce (env.quiesce k)) st.quiesced = br at hb
    cases env.quiesce k with
    | none => exact h0.after hb
    | some e =>
      dsimp only
      by_cases he : e = EBUSY
      · rw [if_pos he]; exact .same rfl hb
      · rw [if_neg he]; exact .same rfl hb
  · rw [if_neg h]; exact h0

theorem sent_silent (l : List Wire.Sent) : Ev.detach ∉ l.map Ev.sent := by simp

theorem closes_silent (l : List (Option Fd)) : Ev.detach ∉ closes l := (inner_quiet (inner_closes l)).2

theorem parts_doReply (cfg : Cfg) (env : Env) (k : Nat) (st : St) (h : Wire.Hdr) (b : Wire.Body) (fds : List (Option Fd))
    (err : Nat) : Parts st (doReply cfg env k st h b fds err) ∧ (.detach ∈ (doReply cfg env k st h b fds err).evs → Drops env.snd) := by
  unfold doReply
  by_cases hn : h.noReply = true
  · rw [if_pos hn]; exact ⟨.same rfl (by simp), fun h => by cases h⟩
  rw [if_neg hn]
  dsimp only
  have hs := sent_silent (Wire.reply env.snd h b fds (err % U32)).2
  generalize hl : (Wire.reply env.snd h b fds (err % U32)).2.map Ev.sent = l at hs
  cases hr : (Wire.reply env.snd h b fds (err % U32)).1 with
  | ok u => exact ⟨.same rfl hs, fun h => absurd h hs⟩
  | error e =>
    dsimp only
    by_cases he : e = ECONNRESET ∨ e = ENOMSG
    · rw [if_pos he]; exact ⟨(parts_resetCtx cfg env k st).after hs, fun _ => drops_of_reply hr he⟩
    · rw [if_neg he]; exact ⟨.same rfl hs, fun h => absurd h hs⟩

theorem parts_refuse (cfg : Cfg) (env : Env) (k : Nat) (st : St) (h : Wire.Hdr) (fds : List Fd) (err : Nat) :
    Parts st (refuse cfg env k st h fds err) ∧ (.detach ∈ (refuse cfg env k st h fds err).evs → Drops env.snd) := by
  obtain ⟨h1, h2⟩ := parts_doReply cfg env k st h (.bytes []) [] err
  unfold refuse
  dsimp only
  by_cases hf : (doReply cfg env k st h (.bytes []) [] err).res.isFault = true
  · rw [if_pos hf]; exact ⟨h1, h2⟩
  · rw [if_neg hf]
    have hc := closes_silent (fds.map some)
    exact ⟨(h1.before hc).before (by simp), fun hd => h2 (by simpa [hc] using hd)⟩

theorem parts_handleRequest (cfg : Cfg) (env : Env) (k : Nat) (st : St) (m : Msg) :
    Parts st (handleRequest cfg env k st m) ∧ (.detach ∈ (handleRequest cfg env k st m).evs → Drops env.snd) := by
  have ht := tame_exec cfg env st m
  have he := (inner_quiet ht.evs).2
  have hc := ht.same.conn
  unfold handleRequest
  dsimp only
  generalize exec cfg env st m = d at he hc
  have he' : Ev.detach ∉ Ev.exec m.hdr :: d.evs := by simp [he]
  by_cases hf : d.res.isFault = true
  · rw [if_pos hf]; exact ⟨.same hc he', fun h => absurd h he'⟩
  rw [if_neg hf]
  obtain ⟨h1, h2⟩ := parts_doReply cfg env k d.st m.hdr d.out d.outFds (replyErr d.res)
  unfold finish
  dsimp only
  have g : Parts st (doReply cfg env k d.st m.hdr d.out d.outFds (replyErr d.res)) := ⟨by rw [h1.conn, hc], h1.res⟩
  have g' := g.after he'
  have hl := closes_silent d.left
  by_cases hf : (doReply cfg env k d.st m.hdr d.out d.outFds (replyErr d.res)).res.isFault = true
  · rw [if_pos hf]; exact ⟨g', fun hd => h2 (by simpa [he] using hd)⟩
  · rw [if_neg hf]
    exact ⟨(g'.before hl).before (by simp), fun hd => h2 (by simpa [he, hl] using hd)⟩

/-- How a call ends a connection. -/
inductive Parting (cfg : Cfg) (st : St) : Op → Res Unit → Prop where
  /-- `vfu_run_ctx` finds the connection closed -/
  | found (env : Env) (e : Nat) (leak : List Fd) : Parting cfg st (.run env (.lost e leak)) (.err ENOTCONN)
  /-- `vfu_run_ctx` could not send a reply -/
  | unsent (env : Env) (i : Wire.In) : Drops env.snd → Parting cfg st (.run env i) (.ok ())
  /-- `vfu_device_quiesced` completes a reset of the context -/
  | late (env : Env) : st.pending = .ctxReset → Parting cfg st (.quiesced env 0) (.ok ())
  /-- `vfu_device_quiesced` completes a request, and could not send its reply -/
  | lateUnsent (env : Env) (m : Msg) : st.pending = .msg m → Drops env.snd → Parting cfg st (.quiesced env 0) (.ok ())
  /-- `vfu_sgl_read`, `vfu_sgl_write` -/
  | transfer (env : Env) : Parting cfg st (.transfer env true) (.err ENOTCONN)

theorem quiet_ok {r : Res Unit} (h : r = .ok ()) : quiet r = .ok () := by rw [h]; rfl

/-- A call that ends the connection only because a reply could not be sent. -/
structure Breaks (env : Env) (st : St) (o : Out) : Prop where
  conn : o.st.conn = (st.conn && decide (Ev.detach ∉ o.evs))
  res : Ev.detach ∈ o.evs → Drops env.snd ∧ o.res = .ok ()

theorem breaks_dispatch (cfg : Cfg) (env : Env) (st : St) (m : Msg) : Breaks env st (dispatch cfg env st m) := by
  unfold dispatch
  by_cases h3 : shouldExec st.mig m.hdr.cmd = false
  · rw [if_pos h3]
    obtain ⟨h1, h2⟩ := parts_refuse cfg env 0 st m.hdr m.fds EINVAL
    exact ⟨h1.conn, fun h => ⟨h2 h, quiet_ok (h1.res h)⟩⟩
  rw [if_neg h3]
  by_cases h4 : needsQuiesce cfg st m = true
  · rw [if_pos h4]
    dsimp only
    have hb := quiesce_silent (env.quiesce 0) st.quiesced
    generalize bracket .quiesce (.quiesce (env.quiesce 0)) st.quiesced = br at hb
    cases env.quiesce 0 with
    | none =>
      obtain ⟨h1, h2⟩ := parts_handleRequest cfg env 1 { st with quiesced := true } m
      have g := h1.after hb
      exact ⟨g.conn, fun h => ⟨h2 (by simpa [hb] using h), g.res h⟩⟩
    | some e =>
      dsimp only
      by_cases he : e = EBUSY
      · rw [if_pos he]; exact ⟨by simp [hb], fun h => absurd h hb⟩
      · rw [if_neg he]
        obtain ⟨h1, h2⟩ := parts_refuse cfg env 1 st m.hdr m.fds e
        have g := h1.after hb
        exact ⟨g.conn, fun h => ⟨h2 (by simpa [hb] using h), quiet_ok (g.res h)⟩⟩
  · rw [if_neg h4]
    obtain ⟨h1, h2⟩ := parts_handleRequest cfg env 0 st m
    exact ⟨h1.conn, fun h => ⟨h2 h, h1.res h⟩⟩

/-- The connection is there after a call if it was there before and the call did not close it; how it may close it. -/
structure Leaving (cfg : Cfg) (st : St) (op : Op) (o : Out) : Prop where
  conn : o.st.conn = (st.conn && decide (Ev.detach ∉ o.evs))
  res : Ev.detach ∈ o.evs → Parting cfg st op o.res

theorem conn_call (cfg : Cfg) (st : St) (op : Op) (ho : ∀ n, op ≠ .attach n) : Leaving cfg st op (call cfg st op) := by
  cases op with
  | run env i =>
    show Leaving cfg st (.run env i) (poll cfg env st i)
    unfold poll
    by_cases h1 : st.pending ≠ .none
    · rw [if_pos h1]; exact ⟨by simp, fun h => by cases h⟩
    rw [if_neg h1]
    by_cases h2 : st.conn = false
    · rw [if_pos h2]; exact ⟨by simp, fun h => by cases h⟩
    rw [if_neg h2]
    cases i with
    | again => exact ⟨by simp, fun h => by cases h⟩
    | lost e leak =>
      have g := parts_resetCtx cfg env 0 st
      dsimp only
      refine ⟨by rw [g.conn]; simp, fun h => ?_⟩
      rw [g.res (by simpa using h)]
      exact .found env e leak
    | failed e leak => exact ⟨by simp, fun h => by simp at h⟩
    | bad hd fds e =>
      obtain ⟨g1, g2⟩ := parts_refuse cfg env 0 st hd fds e
      dsimp only
      refine ⟨by rw [g1.conn]; simp, fun h => ?_⟩
      have h : Ev.detach ∈ (refuse cfg env 0 st hd fds e).evs := by simpa using h
      rw [g1.res h]
      exact .unsent env _ (g2 h)
    | req hd body fds =>
      obtain ⟨g1, g2⟩ := breaks_dispatch cfg env st ⟨hd, body, fds⟩
      dsimp only
      refine ⟨by rw [g1]; simp, fun h => ?_⟩
      have h : Ev.detach ∈ (dispatch cfg env st ⟨hd, body, fds⟩).evs := by simpa using h
      rw [(g2 h).2]
      exact .unsent env _ (g2 h).1
  | quiesced env e =>
    show Leaving cfg st (.quiesced env e) (deviceQuiesced cfg env st e)
    unfold deviceQuiesced
    by_cases h1 : cfg.hasQuiesce = false ∨ st.pending = .none
    · rw [if_pos h1]; exact ⟨by simp, fun h => by cases h⟩
    rw [if_neg h1]
    dsimp only
    by_cases he : e = 0
    · subst he
      rw [if_pos rfl]
      cases hpd : st.pending with
      | none => exact ⟨by simp, fun h => by simp at h⟩
      | msg m =>
        obtain ⟨g1, g2⟩ := parts_handleRequest cfg env 0 { st with quiesced := true } m
        simp only [hpd] at g1 g2
        dsimp only
        refine ⟨by rw [g1.conn]; simp, fun h => ?_⟩
        simp only [List.mem_cons, reduceCtorEq, false_or] at h
        rw [g1.res h]
        exact .lateUnsent env m hpd (g2 h)
      | ctxReset =>
        have g := parts_resetQuiesced cfg env { st with quiesced := true }
        simp only [hpd] at g
        dsimp only
        refine ⟨by rw [g.conn]; simp, fun h => ?_⟩
        simp only [List.mem_cons, reduceCtorEq, false_or] at h
        rw [g.res h]
        exact .late env hpd
    · rw [if_neg he]
      have hn : ∀ l : List Ev, Ev.detach ∉ l → Ev.detach ∉ Ev.devQuiesced e :: l := fun l h => by simp [h]
      cases st.pending with
      | none => exact ⟨by simp, fun h => by simp at h⟩
      | ctxReset => exact ⟨by simp, fun h => by simp at h⟩
      | msg m =>
        have hc := closes_silent (m.fds.map some)
        exact ⟨by simp [hc], fun h => by simp [hc] at h⟩
  | transfer env lost =>
    show Leaving cfg st (.transfer env lost) (transfer cfg env st lost)
    unfold transfer
    by_cases h1 : st.pending ≠ .none
    · rw [if_pos h1]; exact ⟨by simp, fun h => by cases h⟩
    rw [if_neg h1]
    by_cases h : lost = true ∧ st.conn = true
    · rw [if_pos h]
      have g := parts_resetCtx cfg env 0 st
      dsimp only
      refine ⟨g.conn, fun hd => ?_⟩
      rw [g.res hd, h.1]
      exact .transfer env
    · rw [if_neg h]; exact ⟨by simp, fun h => by cases h⟩
  | attach n => exact absurd rfl (ho n)
  | config f => exact ⟨by simp [call], fun h => by simp [call] at h⟩
  | mark sgl =>
    simp only [call]
    cases st.dma with
    | none => exact ⟨by simp, fun h => by simp at h⟩
    | some c => dsimp only; cases Dma.sglMark c sgl <;> exact ⟨by simp, fun h => by simp at h⟩
  | trigger wr sub =>
    have h : Ev.detach ∉ (call cfg st (.trigger wr sub)).evs := (inner_quiet (inner_flatMap inner_ofIrq _)).2
    refine ⟨?_, fun h' => absurd h' h⟩
    simp [h]
    rfl

/-! ## Context and transport together -/

/-- A context and the descriptors of its transport. -/
structure Duo where
  st : St
  tr : Wire.Life.St

/-- A call into the library: `vfu_attach_ctx`, with the answers of the operating system and what is negotiated if all goes
well; or another one. -/
inductive Deed where
  | attach (os : Wire.Life.AttachOS) (caps : Wire.Caps)
  | call (op : Op)

/-- The transport during a call: `vfu_reset_ctx_quiesced` detaches (`lib/libvfio-user.c:1814-1816`). -/
def hangUp : Wire.Life.St → List Ev → Res Unit × Wire.Life.St
  | tr, [] => (.ok (), tr)
  | tr, .detach :: l =>
    match Wire.Life.detach tr with
    | (.ok (), tr') => hangUp tr' l
    | r => r
  | tr, _ :: l => hangUp tr l

/-- One call: its result, and the two states.  `lib/tran_sock.c:447-474` for `vfu_attach_ctx`. -/
def deed (cfg : Cfg) (b : Duo) : Deed → Res Unit × Duo
  | .attach os caps =>
    match Wire.Life.attach os b.tr with
    | (.fault f, tr) => (.fault f, ⟨b.st, tr⟩)
    | (.ok (), tr) => ((attach b.st (.ok caps)).res, ⟨(attach b.st (.ok caps)).st, tr⟩)
    | (.err e, tr) => ((attach b.st (.error e)).res, ⟨(attach b.st (.error e)).st, tr⟩)
  | .call op =>
    match hangUp b.tr (call cfg b.st op).evs with
    | (.ok (), tr) => ((call cfg b.st op).res, ⟨(call cfg b.st op).st, tr⟩)
    | (r, tr) => (r, ⟨(call cfg b.st op).st, tr⟩)

/-- A history, until a call ends abnormally. -/
def deeds (cfg : Cfg) : Duo → List Deed → Duo
  | b, [] => b
  | b, d :: ds => if (deed cfg b d).1.isFault = true then (deed cfg b d).2 else deeds cfg (deed cfg b d).2 ds

/-- `lib/libvfio-user.c:1979-1986` `vfu_get_poll_fd`. -/
def Duo.pollFd (b : Duo) : Option Fd := b.tr.ts.bind Wire.Life.Ts.pollFd

/-- `vfu_attach_ctx` is the deed of that name, and the kernel hands out numbers that are not in use. -/
structure Deed.Proper (d : Deed) (b : Duo) : Prop where
  call : ∀ n, d ≠ .call (.attach n)
  fresh : ∀ os caps, d = .attach os caps → os.Fresh b.tr.mine

def AllProper (cfg : Cfg) : Duo → List Deed → Prop
  | _, [] => True
  | b, d :: ds => d.Proper b ∧ AllProper cfg (deed cfg b d).2 ds

/-- The context knows whether there is a connection. -/
structure Bonded (base : List Fd) (l : Fd) (ts : Wire.Life.Ts) (b : Duo) : Prop where
  owned : Wire.Life.Owned base ts b.tr
  listen : ts.listen = some l
  conn : b.st.conn = ts.conn.isSome

theorem hangUp_spec {base : List Fd} (l : List Ev) : ∀ {ts : Wire.Life.Ts} {tr : Wire.Life.St}, Wire.Life.Owned base ts tr →
    (hangUp tr l).1 = .ok () ∧ (.detach ∉ l → (hangUp tr l).2 = tr) ∧
      (.detach ∈ l → Wire.Life.Owned base { ts with conn := none, cmd := none } (hangUp tr l).2) := by
  induction l with
  | nil => exact fun h => ⟨rfl, fun _ => rfl, fun h => by cases h⟩
  | cons e l ih =>
    intro ts tr h
    by_cases he : e = .detach
    · subst he
      obtain ⟨d1, d2⟩ := Wire.Life.C83_detach h
      unfold hangUp
      cases hd : Wire.Life.detach tr with
      | mk r tr' =>
        rw [hd] at d1 d2
        dsimp only at d1 d2
        subst d1
        dsimp only
        obtain ⟨i1, i2, i3⟩ := ih d2
        refine ⟨i1, fun hn => absurd (.head _) hn, fun _ => ?_⟩
        by_cases hm : Ev.detach ∈ l
        · exact i3 hm
        · rw [i2 hm]; exact d2
    · have hs : hangUp tr (e :: l) = hangUp tr l := by cases e <;> first | rfl | exact absurd rfl he
      rw [hs]
      obtain ⟨i1, i2, i3⟩ := ih h
      refine ⟨i1, fun hn => i2 fun h => hn (.tail _ h), fun hm => i3 ?_⟩
      rcases List.mem_cons.mp hm with h | h
      · exact absurd h.symm he
      · exact h

/-- One call: context and transport stay together; what the call may have done to the connection. -/
theorem deed_spec {cfg : Cfg} {base : List Fd} {l : Fd} {ts : Wire.Life.Ts} {b : Duo} (h : Bonded base l ts b) {d : Deed}
    (hd : d.Proper b) :
    ∃ ts', Bonded base l ts' (deed cfg b d).2 ∧
      (ts'.conn = ts.conn ∨
        (∃ os caps f, d = .attach os caps ∧ (deed cfg b d).1 = .ok () ∧ ts.conn = none ∧ ts'.conn = some f ∧ os.accept = .ok f) ∨
        ∃ op, d = .call op ∧ Parting cfg b.st op (deed cfg b d).1 ∧ ts'.conn = none) := by
  cases d with
  | attach os caps =>
    obtain ⟨a1, a2⟩ := Wire.Life.C83_attach h.owned (hd.fresh os caps rfl)
    have hc := h.conn
    by_cases hn : ts.conn = none
    · have hf : b.st.conn = false := by rw [hc, hn]; rfl
      have hf' : ¬ b.st.conn = true := by rw [hf]; simp
      rcases a2 hn with ⟨e, he⟩ | ⟨f, c, h1, h2, h3⟩
      · refine ⟨ts, ?_, .inl rfl⟩
        unfold deed
        dsimp only
        rw [he]
        dsimp only
        unfold attach
        rw [if_neg hf']
        exact ⟨h.owned, h.listen, h.conn⟩
      · refine ⟨{ ts with conn := some f, cmd := c }, ?_, .inr (.inl ⟨os, caps, f, rfl, ?_, hn, rfl, h2⟩)⟩
        · unfold deed
          cases ha : Wire.Life.attach os b.tr with
          | mk r tr =>
            rw [ha] at h1 h3
            dsimp only at h1 h3
            subst h1
            dsimp only
            rw [ha]
            dsimp only
            unfold attach
            rw [if_neg hf']
            exact ⟨h3, h.listen, rfl⟩
        · unfold deed
          cases ha : Wire.Life.attach os b.tr with
          | mk r tr =>
            rw [ha] at h1
            dsimp only at h1
            subst h1
            dsimp only
            rw [ha]
            dsimp only
            unfold attach
            rw [if_neg hf']
    · have ht : b.st.conn = true := by rw [hc]; exact Option.isSome_iff_ne_none.mpr hn
      refine ⟨ts, ?_, .inl rfl⟩
      unfold deed
      dsimp only
      rw [a1 hn]
      dsimp only
      unfold attach
      rw [if_pos ht]
      exact ⟨h.owned, h.listen, h.conn⟩
  | call op =>
    obtain ⟨c1, c2⟩ := conn_call cfg b.st op fun n hn => hd.call n (by rw [hn])
    obtain ⟨u1, u2, u3⟩ := hangUp_spec (call cfg b.st op).evs h.owned
    have he : deed cfg b (.call op) =
        ((call cfg b.st op).res, ⟨(call cfg b.st op).st, (hangUp b.tr (call cfg b.st op).evs).2⟩) := by
      unfold deed
      dsimp only
      generalize hangUp b.tr (call cfg b.st op).evs = x at u1
      obtain ⟨r, tr⟩ := x
      dsimp only at u1
      subst u1
      rfl
    rw [he]
    by_cases hm : Ev.detach ∈ (call cfg b.st op).evs
    · refine ⟨{ ts with conn := none, cmd := none }, ⟨u3 hm, h.listen, ?_⟩, .inr (.inr ⟨op, rfl, c2 hm, rfl⟩)⟩
      show (call cfg b.st op).st.conn = false
      rw [c1]; simp [hm]
    · refine ⟨ts, ⟨?_, h.listen, ?_⟩, .inl rfl⟩
      · show Wire.Life.Owned base ts (hangUp b.tr (call cfg b.st op).evs).2
        rw [u2 hm]; exact h.owned
      · show (call cfg b.st op).st.conn = _
        rw [c1]; simp [hm, h.conn]

theorem bonded_deeds {cfg : Cfg} {base : List Fd} {l : Fd} (ds : List Deed) : ∀ {ts : Wire.Life.Ts} {b : Duo},
    Bonded base l ts b → AllProper cfg b ds → ∃ ts', Bonded base l ts' (deeds cfg b ds) := by
  induction ds with
  | nil => exact fun h _ => ⟨_, h⟩
  | cons d ds ih =>
    intro ts b h hp
    obtain ⟨ts', h', _⟩ := deed_spec (cfg := cfg) h hp.1
    unfold deeds
    by_cases hf : (deed cfg b d).1.isFault = true
    · rw [if_pos hf]; exact ⟨ts', h'⟩
    · rw [if_neg hf]; exact ih h' hp.2

theorem Bonded.pollFd {base : List Fd} {l : Fd} {ts : Wire.Life.Ts} {b : Duo} (h : Bonded base l ts b) :
    b.pollFd = some (ts.conn.getD l) := by
  unfold Duo.pollFd
  rw [h.owned.data]
  show ts.pollFd = _
  unfold Wire.Life.Ts.pollFd
  rw [h.listen]
  cases ts.conn <;> simp

/-- A realized context with its transport (`Wire.Life.init`), before the first client. -/
def Duo.start (cfg : Cfg) (mig : Bool) (dma : Option (Nat × Nat)) (p : Pci.Pci) (os : Wire.Life.InitOS) (base : List Fd) : Duo :=
  ⟨init cfg mig dma p, (Wire.Life.init os ⟨none, base, false⟩).2⟩

theorem bonded_start {cfg : Cfg} {mig : Bool} {dma : Option (Nat × Nat)} {p : Pci.Pci} {os : Wire.Life.InitOS} {base : List Fd}
    (hb : base.Nodup) (hf : os.Fresh base) (hok : (Wire.Life.init os ⟨none, base, false⟩).1 = .ok ()) :
    ∃ l, os.socket = .ok l ∧ Bonded base l ⟨some l, none, none⟩ (Duo.start cfg mig dma p os base) := by
  rcases Wire.Life.C83_init hb hf with ⟨_, f, hs, h⟩ | ⟨e, he, _⟩
  · exact ⟨f, hs, h, rfl, rfl⟩
  · rw [hok] at he; cases he

section
variable {cfg : Cfg} {mig : Bool} {dma : Option (Nat × Nat)} {p : Pci.Pci} {os : Wire.Life.InitOS} {base : List Fd}

/-- C107: at any time between two calls, `vfu_get_poll_fd` gives an open descriptor: the listening socket, if and only if there
is no client. -/
theorem C107_open (hb : base.Nodup) (hf : os.Fresh base) (hok : (Wire.Life.init os ⟨none, base, false⟩).1 = .ok ())
    (ds : List Deed) (hp : AllProper cfg (Duo.start cfg mig dma p os base) ds) :
    let b := deeds cfg (Duo.start cfg mig dma p os base) ds
    ∃ f ∈ b.tr.mine, b.pollFd = some f ∧ (os.socket = .ok f ↔ b.st.conn = false) := by
  intro b
  obtain ⟨l, hl, h0⟩ := bonded_start (cfg := cfg) (mig := mig) (dma := dma) (p := p) hb hf hok
  obtain ⟨ts, h⟩ := bonded_deeds ds h0 hp
  have hm := h.owned.mine
  have hn := h.owned.nodup
  rw [hm, h.listen] at hn
  refine ⟨ts.conn.getD l, ?_, h.pollFd, ?_⟩
  · rw [hm, h.listen]
    cases ts.conn <;> simp
  · rw [hl, h.conn]
    cases hc : ts.conn with
    | none => simp
    | some f =>
      have hne : l ≠ f := by
        rintro rfl
        rw [hc] at hn
        cases hcm : ts.cmd with
        | none => rw [hcm] at hn; simp at hn
        | some c => rw [hcm] at hn; simp at hn
      simp [hne]

/-- C107: when the descriptor changes. -/
theorem C107_changes (hb : base.Nodup) (hf : os.Fresh base) (hok : (Wire.Life.init os ⟨none, base, false⟩).1 = .ok ())
    (ds : List Deed) (hp : AllProper cfg (Duo.start cfg mig dma p os base) ds) (d : Deed) :
    let b := deeds cfg (Duo.start cfg mig dma p os base) ds
    d.Proper b → (deed cfg b d).2.pollFd ≠ b.pollFd →
      (∃ os caps, d = .attach os caps ∧ (deed cfg b d).1 = .ok ()) ∨
      (∃ env e leak, d = .call (.run env (.lost e leak)) ∧ (deed cfg b d).1 = .err ENOTCONN) ∨
      (∃ env i, d = .call (.run env i) ∧ (deed cfg b d).1 = .ok () ∧ Drops env.snd) ∨
      (∃ env, d = .call (.quiesced env 0) ∧ (deed cfg b d).1 = .ok () ∧
        (b.st.pending = .ctxReset ∨ (∃ m, b.st.pending = .msg m) ∧ Drops env.snd)) ∨
      ∃ env, d = .call (.transfer env true) ∧ (deed cfg b d).1 = .err ENOTCONN := by
  intro b hd hne
  obtain ⟨l, hl, h0⟩ := bonded_start (cfg := cfg) (mig := mig) (dma := dma) (p := p) hb hf hok
  obtain ⟨ts, h⟩ := bonded_deeds ds h0 hp
  obtain ⟨ts', h', hc⟩ := deed_spec (cfg := cfg) h hd
  rcases hc with hc | ⟨os, caps, f, h1, h2, _⟩ | ⟨op, rfl, hr, _⟩
  · rw [h'.pollFd, h.pollFd, hc] at hne; exact absurd rfl hne
  · exact .inl ⟨os, caps, h1, h2⟩
  · generalize (deed cfg (deeds cfg (Duo.start cfg mig dma p os base) ds) (.call op)).1 = r at hr
    cases hr with
    | found env e leak => exact .inr (.inl ⟨env, e, leak, rfl, rfl⟩)
    | unsent env i hs => exact .inr (.inr (.inl ⟨env, i, rfl, rfl, hs⟩))
    | late env hpd => exact .inr (.inr (.inr (.inl ⟨env, rfl, rfl, .inl hpd⟩)))
    | lateUnsent env m hpd hs => exact .inr (.inr (.inr (.inl ⟨env, rfl, rfl, .inr ⟨⟨m, hpd⟩, hs⟩⟩)))
    | transfer env => exact .inr (.inr (.inr (.inr ⟨env, rfl, rfl⟩)))

theorem pc_deeds (ds : List Deed) : ∀ {b : Duo}, PendConn b.st → PendConn (deeds cfg b ds).st := by
  induction ds with
  | nil => exact fun h => h
  | cons d ds ih =>
    intro b h
    have h1 : PendConn (deed cfg b d).2.st := by
      cases d with
      | attach os caps =>
        unfold deed
        dsimp only
        generalize Wire.Life.attach os b.tr = x
        obtain ⟨r, tr⟩ := x
        cases r with
        | ok u => exact call_pc cfg b.st (.attach (.ok caps)) h
        | err e => exact call_pc cfg b.st (.attach (.error e)) h
        | fault f => exact h
      | call op =>
        unfold deed
        dsimp only
        generalize hangUp b.tr (call cfg b.st op).evs = x
        obtain ⟨r, tr⟩ := x
        cases r <;> exact call_pc cfg b.st op h
    unfold deeds
    by_cases hf : (deed cfg b d).1.isFault = true
    · rw [if_pos hf]; exact h1
    · rw [if_neg hf]; exact ih h1

/-- C107: whatever ended the connection, an application that calls `vfu_run_ctx` once more is told: without a client it returns
-1 with ENOTCONN, reads nothing and does nothing. -/
theorem C107_told (ds : List Deed) (env : Env) (i : Wire.In) :
    let b := deeds cfg (Duo.start cfg mig dma p os base) ds
    b.st.conn = false → (deed cfg b (.call (.run env i))) = (.err ENOTCONN, b) := by
  intro b hc
  have hp : b.st.pending = .none := by
    have := pc_deeds (cfg := cfg) (b := Duo.start cfg mig dma p os base) ds (fun h => absurd rfl h)
    by_contra hn
    have := this hn
    rw [hc] at this
    cases this
  have he : call cfg b.st (.run env i) = { st := b.st, res := .err ENOTCONN, evs := [] } := by
    show poll cfg env b.st i = _
    unfold poll
    rw [if_neg (not_not_intro hp), if_pos hc]
  unfold deed
  dsimp only
  rw [he]
  rfl

end

/-! ## Blocking calls -/

/-- The rounds of one call of `vfu_run_ctx` that may block: as long as it lasts nothing is returned; it does not return without
telling that the connection has ended. -/
theorem blocking_rounds {cfg : Cfg} (envs : List Env) : ∀ {m : Mach} {n : Nat}, m.loop = some (true, n) → m.dead = false →
    PendConn m.st → (go cfg m (envs.map .round)).dead = false → (go cfg m (envs.map .round)).loop = none →
    ∃ e, (go cfg m (envs.map .round)).rets = m.rets ++ [.failed e] ∧
      ((go cfg m (envs.map .round)).st.conn = false → e = ENOTCONN) := by
  induction envs with
  | nil =>
    intro m n hl _ _ _ h
    have h : m.loop = none := h
    rw [hl] at h; cases h
  | cons env envs ih =>
    intro m n hl hd hpc hdead hloop
    have hstep : go cfg m ((env :: envs).map .round) = go cfg (round cfg env true n m) (envs.map .round) := by
      show go cfg (step cfg m (.round env)) (envs.map .round) = _
      rw [step_round hd hl env]
    rw [hstep] at hdead hloop ⊢
    by_cases hw : m.st.reads = true ∧ true = true ∧ waits (Wire.next m.sock).1 = true
    · have hr : round cfg env true n m = m := by unfold round; rw [if_pos hw]
      rw [hr] at hdead hloop ⊢
      exact ih hl hd hpc hdead hloop
    · generalize hi : (Wire.next m.sock).1 = i at hw
      have hpc' : PendConn (poll cfg env m.st i).st := call_pc cfg m.st (.run env i) hpc
      obtain ⟨c1, c2⟩ := conn_call cfg m.st (.run env i) (by simp)
      have c1 : (poll cfg env m.st i).st.conn = (m.st.conn && decide (Ev.detach ∉ (poll cfg env m.st i).evs)) := c1
      have c2 : .detach ∈ (poll cfg env m.st i).evs → Parting cfg m.st (.run env i) (poll cfg env m.st i).res := c2
      have hgone : m.st.conn = false → (poll cfg env m.st i).res = .err ENOTCONN := by
        intro hc
        have hp : m.st.pending = .none := by
          by_contra hn
          have := hpc hn
          rw [hc] at this
          cases this
        unfold poll
        rw [if_neg (not_not_intro hp), if_pos hc]
      cases hres : (poll cfg env m.st i).res with
      | fault f =>
        have : (round cfg env true n m).dead = true := by
          unfold round
          rw [hi, if_neg hw]
          dsimp only
          rw [hres]
        rw [dead_stays cfg _ _ this] at hdead
        cases hdead
      | err e =>
        have hr : (round cfg env true n m).loop = none ∧ (round cfg env true n m).rets = m.rets ++ [.failed e] ∧
            (round cfg env true n m).st = (poll cfg env m.st i).st := by
          unfold round
          rw [hi, if_neg hw]
          dsimp only
          rw [hres]
          exact ⟨rfl, rfl, rfl⟩
        rw [rounds_idle cfg envs _ hr.1, hr.2.1, hr.2.2]
        refine ⟨e, rfl, fun hc => ?_⟩
        by_cases hm : m.st.conn = false
        · have := hgone hm
          rw [hres] at this
          cases this; rfl
        · have hm : m.st.conn = true := by simpa using hm
          rw [c1, hm] at hc
          have hdt : Ev.detach ∈ (poll cfg env m.st i).evs := by simpa using hc
          have := c2 hdt
          rw [hres] at this
          cases this
          rfl
      | ok u =>
        have hr : ∃ k, (round cfg env true n m).loop = some (true, k) ∧ (round cfg env true n m).rets = m.rets ∧
            (round cfg env true n m).st = (poll cfg env m.st i).st ∧ (round cfg env true n m).dead = m.dead := by
          unfold round
          rw [hi, if_neg hw]
          dsimp only
          rw [hres]
          exact ⟨_, rfl, rfl, rfl, rfl⟩
        obtain ⟨k, r1, r2, r3, r4⟩ := hr
        have := ih r1 (r4.trans hd) (by rw [r3]; exact hpc') hdead hloop
        rw [r2] at this
        exact this

/-- C107: a call of `vfu_run_ctx` that may block returns, if it returns at all, -1; and with ENOTCONN if there is no connection
afterwards, whatever ended it. -/
theorem C107_blocking {cfg : Cfg} {m : Mach} (hd : m.dead = false) (hl : m.loop = none) (hpc : PendConn m.st) (envs : List Env) :
    let m' := go cfg m (.enter true :: envs.map .round)
    m'.dead = false → m'.loop = none → ∃ e, m'.rets = m.rets ++ [.failed e] ∧ (m'.st.conn = false → e = ENOTCONN) := by
  intro m' h1 h2
  have hs : m' = go cfg { m with loop := some (true, 0) } (envs.map .round) := by
    show go cfg (step cfg m (.enter true)) (envs.map .round) = _
    rw [step_enter hd hl]
  rw [hs] at h1 h2 ⊢
  exact blocking_rounds envs (m := { m with loop := some (true, 0) }) rfl hd hpc h1 h2

/-! ## Changes an application is not told about -/

section
open Demo

def sockets : Wire.Life.InitOS := ⟨true, .ok 3, true, none, none, none, none⟩

def duo : Duo := Duo.start cfg true (some (16, 1048576)) pci sockets [0, 1, 2]

def joins (f : Fd) : Deed := .attach ⟨.ok f, .ok false, .error 0, none⟩ ⟨8, 1048576, 4096, false⟩

/-- C107: two changes without ENOTCONN from `vfu_run_ctx`.  A client that leaves before its reply: `vfu_run_ctx` returns
success, descriptor 4 is closed and the one to wait on is 3.  A client that leaves while the device takes its time to quiesce:
`vfu_run_ctx` returned EBUSY, `vfu_device_quiesced` returns success and closes the connection. -/
theorem C107_unnoticed :
    (let b := deeds cfg duo [joins 4]
     let r := deed cfg b (.call (.run { env with snd := fun _ => .error 32 } (req 7 4 0 (enc 4 16 ++ enc 12 0) [])))
     b.pollFd = some 4 ∧ r.1 = .ok () ∧ r.2.pollFd = some 3 ∧ r.2.tr.mine = [3, 0, 1, 2]) ∧
    (let b := deeds cfg duo [joins 4]
     let r := deed cfg b (.call (.run busy (.lost ENOMSG [])))
     let s := deed cfg r.2 (.call (.quiesced env 0))
     r.1 = .err EBUSY ∧ r.2.pollFd = some 4 ∧ s.1 = .ok () ∧ s.2.pollFd = some 3 ∧ s.2.tr.mine = [3, 0, 1, 2]) := by
  decide +kernel

/-- The hypotheses: sockets 3 and 4 next to descriptors the application has; a client that comes, asks, and leaves. -/
example : (Wire.Life.init sockets ⟨none, [0, 1, 2], false⟩).1 = .ok () ∧ [0, 1, 2].Nodup ∧ sockets.Fresh [0, 1, 2] ∧
    AllProper cfg duo [joins 4, .call (.run env (req 7 4 0 (enc 4 16 ++ enc 12 0) [])), .call (.run env (.lost ENOMSG [])),
      joins 4] := by
  refine ⟨rfl, by decide, ?_, ⟨?_, ?_⟩, ⟨?_, ?_⟩, ⟨?_, ?_⟩, ⟨?_, ?_⟩, trivial⟩
  · intro f hf; cases hf; decide
  · intro n h; cases h
  · intro os caps h
    cases h
    exact ⟨fun f hf => by cases hf; decide, fun f a b _ hp => by cases hp⟩
  · intro n h; cases h
  · intro os caps h; cases h
  · intro n h; cases h
  · intro os caps h; cases h
  · intro n h; cases h
  · intro os caps h
    cases h
    exact ⟨fun f hf => by cases hf; decide +kernel, fun f a b _ hp => by cases hp⟩

/-- The change that is announced. -/
example : (deeds cfg duo [joins 4]).pollFd = some 4 ∧
    (deed cfg (deeds cfg duo [joins 4]) (.call (.run env (.lost ENOMSG [])))).1 = .err ENOTCONN ∧
    (deed cfg (deeds cfg duo [joins 4]) (.call (.run env (.lost ENOMSG [])))).2.pollFd = some 3 := by
  decide +kernel

/-- A call that blocks: the client has left. -/
example : let m := go cfg { Mach.start st with sock := ⟨[], true, []⟩ } (.enter true :: [env].map .round)
    m.dead = false ∧ m.loop = none ∧ m.st.conn = false ∧ m.rets = [.failed ENOTCONN] := by
  decide +kernel

end
end Verif.Server
