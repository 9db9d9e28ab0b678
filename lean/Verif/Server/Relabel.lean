import Verif.Server.Defer

/-!
# The id and the flags of a request

C111: what a call does depends on the command, the payload and the descriptors of a request; its id is only put into the
reply, and the no-reply flag only leaves the reply out.  -/

namespace Verif.Server
open Verif
open Verif.Dma (Fd)

/-! ### Other headers -/

/-- The state with another header of the waiting request. -/
def Pending.lab (g : Wire.Hdr → Wire.Hdr) : Pending → Pending
  | .msg m => .msg { m with hdr := g m.hdr }
  | p => p

def St.lab (g : Wire.Hdr → Wire.Hdr) (st : St) : St := { st with pending := st.pending.lab g }

/-- What is read, with another header. -/
def inLab (g : Wire.Hdr → Wire.Hdr) : Wire.In → Wire.In
  | .req h b f => .req (g h) b f
  | .bad h f e => .bad (g h) f e
  | i => i

def Op.lab (g : Wire.Hdr → Wire.Hdr) : Op → Op
  | .run env i => .run env (inLab g i)
  | op => op

/-- Events with other headers; `s`: what becomes of a message sent. -/
def Ev.lab (g : Wire.Hdr → Wire.Hdr) (s : Wire.Sent → List Wire.Sent) : Ev → List Ev
  | .got h f => [.got (g h) f]
  | .exec h => [.exec (g h)]
  | .sent w => (s w).map .sent
  | e => [e]

def evsLab (g : Wire.Hdr → Wire.Hdr) (s : Wire.Sent → List Wire.Sent) (l : List Ev) : List Ev := l.flatMap (Ev.lab g s)

section
variable {g : Wire.Hdr → Wire.Hdr} {s : Wire.Sent → List Wire.Sent}

theorem evsLab_append (a b : List Ev) : evsLab g s (a ++ b) = evsLab g s a ++ evsLab g s b := List.flatMap_append ..
theorem evsLab_cons (e : Ev) (l : List Ev) : evsLab g s (e :: l) = Ev.lab g s e ++ evsLab g s l := by
  unfold evsLab; rw [List.flatMap_cons]

/-- No header, no message. -/
def Ev.Plain : Ev → Prop
  | .got _ _ | .exec _ | .sent _ => False
  | _ => True

theorem evsLab_plain {l : List Ev} (h : ∀ e ∈ l, e.Plain) : evsLab g s l = l := by
  induction l with
  | nil => rfl
  | cons e l ih =>
    rw [evsLab_cons, ih (fun e' h' => h e' (.tail _ h'))]
    have h1 := h e (.head _)
    cases e <;> first | rfl | exact h1.elim

theorem plain_inner {l : List Ev} (h : ∀ e ∈ l, e.Inner) : ∀ e ∈ l, e.Plain := by
  intro e he
  have := h e he
  cases e <;> first | exact this.elim | trivial

theorem plain_closes (l : List (Option Fd)) : ∀ e ∈ closes l, e.Plain := by
  intro e he
  unfold closes at he
  obtain ⟨x, _, rfl⟩ := List.mem_map.mp he
  trivial

/-! ### Losing the connection -/

theorem deviceReset_pending (cfg : Cfg) (env : Env) (st : St) (p : Pending) (r : Reason) :
    deviceReset cfg env { st with pending := p } r =
      ({ (deviceReset cfg env st r).1 with pending := p }, (deviceReset cfg env st r).2.1, (deviceReset cfg env st r).2.2) := by
  unfold deviceReset
  by_cases h : cfg.hasReset = true
  · rw [if_pos h, if_pos h]
    dsimp only
    cases env.resetCb r <;> rfl
  · rw [if_neg h, if_neg h]

theorem resetQuiesced_pending (cfg : Cfg) (env : Env) (st : St) (p : Pending) :
    resetQuiesced cfg env { st with pending := p } =
      { resetQuiesced cfg env st with st := { (resetQuiesced cfg env st).st with pending := p } } := by
  unfold resetQuiesced
  dsimp only
  cases dropDma cfg st.dma with
  | err e => rfl
  | fault f => rfl
  | ok x =>
    obtain ⟨dma, ev1⟩ := x
    dsimp only
    have h := deviceReset_pending cfg env { st with dma := dma } p .lostConn
    have h' : deviceReset cfg env { st with dma := dma, pending := p } .lostConn = _ := h
    rw [h']
    dsimp only
    cases Irq.reset cfg.irq (deviceReset cfg env { st with dma := dma } .lostConn).1.irqs with
    | err e => rfl
    | fault f => rfl
    | ok x => rfl

theorem resetQuiesced_plain (cfg : Cfg) (env : Env) (st : St) : ∀ e ∈ (resetQuiesced cfg env st).evs, e.Plain := by
  unfold resetQuiesced
  cases dropDma cfg st.dma with
  | err e => intro e he; cases he
  | fault f => intro e he; cases he
  | ok x =>
    obtain ⟨dma, ev1⟩ := x
    dsimp only
    have h1 := plain_inner (inner_flatMap (inner_ofDma (q := st.quiesced)) ev1)
    have h2 := plain_inner (inner_deviceReset cfg env { st with dma } .lostConn)
    cases Irq.reset cfg.irq (deviceReset cfg env { st with dma } .lostConn).1.irqs with
    | err e => exact all_append h1 h2
    | fault f => exact all_append h1 h2
    | ok y =>
      refine all_append (all_append (all_append h1 h2) (plain_inner (inner_flatMap (inner_ofIrq (q := st.quiesced)) _))) ?_
      intro e he
      rw [List.mem_singleton.mp he]; trivial

theorem resetCtx_plain (cfg : Cfg) (env : Env) (k : Nat) (st : St) : ∀ e ∈ (resetCtx cfg env k st).evs, e.Plain := by
  unfold resetCtx
  by_cases h : cfg.hasQuiesce = true ∧ st.pending = .none
  · rw [if_pos h]
    dsimp only
    have hb := plain_inner (inner_bracket (t := .quiesce) (c := .quiesce (env.quiesce k)) (q := st.quiesced))
    cases hk : env.quiesce k with
    | none => rw [hk] at hb; exact all_append hb (resetQuiesced_plain cfg env st)
    | some e =>
      rw [hk] at hb
      dsimp only
      by_cases he : e = EBUSY
      · rw [if_pos he]; exact hb
      · rw [if_neg he]; exact hb
  · rw [if_neg h]; exact resetQuiesced_plain cfg env st

theorem lab_none {p : Pending} : p.lab g = .none ↔ p = .none := by cases p <;> simp [Pending.lab]

theorem deviceReset_keep (cfg : Cfg) (env : Env) (st : St) (r : Reason) :
    (deviceReset cfg env st r).1.pending = st.pending := by
  unfold deviceReset
  by_cases h : cfg.hasReset = true
  · rw [if_pos h]
    dsimp only
    cases env.resetCb r <;> rfl
  · rw [if_neg h]

theorem resetQuiesced_keep (cfg : Cfg) (env : Env) (st : St) : (resetQuiesced cfg env st).st.pending = st.pending := by
  unfold resetQuiesced
  cases dropDma cfg st.dma with
  | err e => rfl
  | fault f => rfl
  | ok x =>
    obtain ⟨dma, ev1⟩ := x
    dsimp only
    have h := deviceReset_keep cfg env { st with dma := dma } .lostConn
    cases Irq.reset cfg.irq (deviceReset cfg env { st with dma := dma } .lostConn).1.irqs with
    | err e => exact h
    | fault f => exact h
    | ok x => exact h

theorem resetQuiesced_lab (cfg : Cfg) (env : Env) (st : St) :
    resetQuiesced cfg env (st.lab g) = { resetQuiesced cfg env st with st := (resetQuiesced cfg env st).st.lab g } := by
  have h := resetQuiesced_pending cfg env st (st.pending.lab g)
  have h' := resetQuiesced_keep cfg env st
  unfold St.lab
  rw [h, h']

theorem resetCtx_lab (cfg : Cfg) (env : Env) (k : Nat) (st : St) :
    resetCtx cfg env k (st.lab g) = { resetCtx cfg env k st with st := (resetCtx cfg env k st).st.lab g } := by
  have h1 := resetQuiesced_lab (g := g) cfg env st
  unfold resetCtx
  by_cases h : cfg.hasQuiesce = true ∧ st.pending = .none
  · rw [if_pos h, if_pos (show cfg.hasQuiesce = true ∧ (st.lab g).pending = .none from ⟨h.1, lab_none.mpr h.2⟩)]
    dsimp only
    cases hk : env.quiesce k with
    | none => dsimp only; rw [h1]; rfl
    | some e =>
      dsimp only
      by_cases he : e = EBUSY
      · rw [if_pos he, if_pos he]; rfl
      · rw [if_neg he, if_neg he]; rfl
  · rw [if_neg h, if_neg (show ¬ (cfg.hasQuiesce = true ∧ (st.lab g).pending = .none) from
      fun h' => h ⟨h'.1, lab_none.mp h'.2⟩), h1]

/-! ### Calls -/

/-- Two outcomes correspond: the same but for headers and messages sent; results are related by `W`. -/
structure Matches (g : Wire.Hdr → Wire.Hdr) (s : Wire.Sent → List Wire.Sent) (W : Res Unit → Res Unit → Prop) (o o' : Out) :
    Prop where
  st : o'.st = o.st.lab g
  evs : o'.evs = evsLab g s o.evs
  res : W o.res o'.res

/-- How results may be related. -/
structure Weak (W : Res Unit → Res Unit → Prop) : Prop where
  refl : ∀ r, W r r
  fault : ∀ {r r'}, W r r' → r.isFault = r'.isFault
  quiet : ∀ {r r'}, W r r' → W (quiet r) (quiet r')

/-- What is asked of the new headers and of replies. -/
structure Relabels (g : Wire.Hdr → Wire.Hdr) (s : Wire.Sent → List Wire.Sent) (W : Res Unit → Res Unit → Prop) (cfg : Cfg)
    (env : Env) : Prop where
  weak : Weak W
  cmd : ∀ h, (g h).cmd = h.cmd
  reply : ∀ k st h b fds err, Matches g s W (doReply cfg env k st h b fds err) (doReply cfg env k (st.lab g) (g h) b fds err)

variable {W : Res Unit → Res Unit → Prop} {cfg : Cfg} {env : Env}

theorem exec_lab (hc : ∀ h, (g h).cmd = h.cmd) (cfg : Cfg) (env : Env) (st : St) (m : Msg) :
    exec cfg env (st.lab g) { m with hdr := g m.hdr } =
      { exec cfg env st m with st := (exec cfg env st m).st.lab g } := by
  have h1 : exec cfg env (st.lab g) { m with hdr := g m.hdr } = exec cfg env (st.lab g) m := by
    unfold exec
    dsimp only
    rw [hc]
  have h2 := exec_pending cfg env st m (st.pending.lab g)
  have h3 := (tame_exec cfg env st m).same.pending
  rw [h1]
  refine h2.trans ?_
  unfold Done.pend St.lab
  rw [h3]

theorem handleRequest_lab (H : Relabels g s W cfg env) (k : Nat) (st : St) (m : Msg) :
    Matches g s W (handleRequest cfg env k st m) (handleRequest cfg env k (st.lab g) { m with hdr := g m.hdr }) := by
  have hin := evsLab_plain (g := g) (s := s) (plain_inner (tame_exec cfg env st m).evs)
  unfold handleRequest
  rw [exec_lab H.cmd]
  dsimp only
  generalize exec cfg env st m = d at *
  by_cases hf : d.res.isFault = true
  · rw [if_pos hf, if_pos hf]
    exact ⟨rfl, by rw [evsLab_cons, hin]; rfl, H.weak.refl _⟩
  rw [if_neg hf, if_neg hf]
  unfold finish
  dsimp only
  have hr := H.reply k d.st m.hdr d.out d.outFds (replyErr d.res)
  generalize doReply cfg env k d.st m.hdr d.out d.outFds (replyErr d.res) = o at hr
  generalize doReply cfg env k (d.st.lab g) (g m.hdr) d.out d.outFds (replyErr d.res) = o' at hr
  have hff := H.weak.fault hr.res
  have hcl := evsLab_plain (g := g) (s := s) (plain_closes d.left)
  have e0 : ∀ l, evsLab g s (.exec m.hdr :: l) = .exec (g m.hdr) :: evsLab g s l := fun l => by rw [evsLab_cons]; rfl
  by_cases hof : o.res.isFault = true
  · rw [if_pos hof, if_pos (hff ▸ hof)]
    refine ⟨hr.st, ?_, hr.res⟩
    dsimp only
    rw [List.cons_append, List.cons_append, e0, evsLab_append, hin, hr.evs]
  · rw [if_neg hof, if_neg (hff ▸ hof)]
    refine ⟨hr.st, ?_, hr.res⟩
    dsimp only
    simp only [List.cons_append]
    rw [e0, evsLab_append, evsLab_append, evsLab_append, hin, hr.evs, hcl]
    rfl

theorem refuse_lab (H : Relabels g s W cfg env) (k : Nat) (st : St) (h : Wire.Hdr) (fds : List Fd) (err : Nat) :
    Matches g s W (refuse cfg env k st h fds err) (refuse cfg env k (st.lab g) (g h) fds err) := by
  unfold refuse
  dsimp only
  have hr := H.reply k st h (.bytes []) [] err
  generalize doReply cfg env k st h (.bytes []) [] err = o at hr
  generalize doReply cfg env k (st.lab g) (g h) (.bytes []) [] err = o' at hr
  have hff := H.weak.fault hr.res
  have hcl := evsLab_plain (g := g) (s := s) (plain_closes (fds.map some))
  by_cases hof : o.res.isFault = true
  · rw [if_pos hof, if_pos (hff ▸ hof)]; exact hr
  · rw [if_neg hof, if_neg (hff ▸ hof)]
    refine ⟨hr.st, ?_, hr.res⟩
    dsimp only
    rw [evsLab_append, evsLab_append, hr.evs, hcl]
    rfl

theorem needsQuiesce_lab (hc : ∀ h, (g h).cmd = h.cmd) (st : St) (m : Msg) :
    needsQuiesce cfg (st.lab g) { m with hdr := g m.hdr } = needsQuiesce cfg st m := by
  unfold needsQuiesce
  dsimp only
  rw [hc]
  rfl

theorem dispatch_lab (H : Relabels g s W cfg env) (st : St) (m : Msg) :
    Matches g s W (dispatch cfg env st m) (dispatch cfg env (st.lab g) { m with hdr := g m.hdr }) := by
  unfold dispatch
  rw [needsQuiesce_lab H.cmd]
  have hs : shouldExec (st.lab g).mig ({ m with hdr := g m.hdr } : Msg).hdr.cmd = shouldExec st.mig m.hdr.cmd := by
    show shouldExec st.mig (g m.hdr).cmd = _
    rw [H.cmd]
  rw [hs]
  by_cases h1 : shouldExec st.mig m.hdr.cmd = false
  · rw [if_pos h1, if_pos h1]
    have h := refuse_lab H 0 st m.hdr m.fds EINVAL
    exact ⟨h.st, h.evs, H.weak.quiet h.res⟩
  rw [if_neg h1, if_neg h1]
  by_cases h2 : needsQuiesce cfg st m = true
  · rw [if_pos h2, if_pos h2]
    dsimp only
    have hb : ∀ o, evsLab g s (bracket .quiesce (.quiesce o) st.quiesced) = bracket .quiesce (.quiesce o) st.quiesced :=
      fun o => evsLab_plain (plain_inner inner_bracket)
    cases hk : env.quiesce 0 with
    | some e =>
      dsimp only
      by_cases he : e = EBUSY
      · rw [if_pos he, if_pos he]
        exact ⟨rfl, (hb _).symm, H.weak.refl _⟩
      · rw [if_neg he, if_neg he]
        have h := refuse_lab H 1 st m.hdr m.fds e
        refine ⟨h.st, ?_, H.weak.quiet h.res⟩
        dsimp only
        rw [evsLab_append, hb, h.evs]
        rfl
    | none =>
      dsimp only
      have h := handleRequest_lab H 1 { st with quiesced := true } m
      have h' : handleRequest cfg env 1 { (st.lab g) with quiesced := true } { m with hdr := g m.hdr } =
        handleRequest cfg env 1 (St.lab g { st with quiesced := true }) { m with hdr := g m.hdr } := rfl
      rw [h']
      refine ⟨by dsimp only; rw [h.st]; rfl, ?_, h.res⟩
      dsimp only
      rw [evsLab_append, hb, h.evs]
      rfl
  · rw [if_neg h2, if_neg h2]
    have h := handleRequest_lab H 0 st m
    exact ⟨by dsimp only; rw [h.st]; rfl, h.evs, h.res⟩

theorem poll_lab (H : Relabels g s W cfg env) (st : St) (i : Wire.In) :
    Matches g s W (poll cfg env st i) (poll cfg env (st.lab g) (inLab g i)) := by
  unfold poll
  by_cases hp : st.pending ≠ .none
  · rw [if_pos hp, if_pos (show (st.lab g).pending ≠ .none from fun h => hp (lab_none.mp h))]
    exact ⟨rfl, rfl, H.weak.refl _⟩
  rw [if_neg hp, if_neg (show ¬ (st.lab g).pending ≠ .none from fun h => hp (fun h' => h (lab_none.mpr h')))]
  by_cases hc : st.conn = false
  · rw [if_pos hc, if_pos (show (st.lab g).conn = false from hc)]
    exact ⟨rfl, rfl, H.weak.refl _⟩
  rw [if_neg hc, if_neg (show ¬ (st.lab g).conn = false from hc)]
  cases i with
  | again => exact ⟨rfl, rfl, H.weak.refl _⟩
  | lost e leak =>
    show Matches g s W _ { resetCtx cfg env 0 (st.lab g) with res := _, evs := _ }
    rw [resetCtx_lab]
    refine ⟨rfl, ?_, H.weak.refl _⟩
    dsimp only
    rw [evsLab_cons, evsLab_plain (resetCtx_plain cfg env 0 st)]
    rfl
  | failed e leak => exact ⟨rfl, rfl, H.weak.refl _⟩
  | bad h fds e =>
    have h1 := refuse_lab H 0 st h fds e
    refine ⟨h1.st, ?_, H.weak.quiet h1.res⟩
    show Ev.got (g h) fds :: (refuse cfg env 0 (st.lab g) (g h) fds e).evs = _
    dsimp only
    rw [evsLab_cons, h1.evs]
    rfl
  | req h body fds =>
    have h1 := dispatch_lab H st ⟨h, body, fds⟩
    refine ⟨h1.st, ?_, h1.res⟩
    show Ev.got (g h) fds :: (dispatch cfg env (st.lab g) ⟨g h, body, fds⟩).evs = _
    dsimp only
    rw [evsLab_cons, h1.evs]
    rfl

theorem deviceQuiesced_lab (H : Relabels g s W cfg env) (st : St) (errno : Nat) :
    Matches g s W (deviceQuiesced cfg env st errno) (deviceQuiesced cfg env (st.lab g) errno) := by
  obtain ⟨mg, d, ir, pc, cn, pd, qu, mf, mx⟩ := st
  have e0 : ∀ l, evsLab g s (.devQuiesced errno :: l) = .devQuiesced errno :: evsLab g s l := fun l => by
    rw [evsLab_cons]; rfl
  by_cases hq : cfg.hasQuiesce = false
  · unfold deviceQuiesced
    rw [if_pos (.inl hq), if_pos (.inl hq)]
    exact ⟨rfl, rfl, H.weak.refl _⟩
  cases pd with
  | none =>
    unfold deviceQuiesced
    rw [if_pos (.inr rfl), if_pos (.inr rfl)]
    exact ⟨rfl, rfl, H.weak.refl _⟩
  | ctxReset =>
    have hn : ¬ (cfg.hasQuiesce = false ∨ Pending.ctxReset = .none) := by simp [hq]
    show Matches g s W _ (deviceQuiesced cfg env (St.mk mg d ir pc cn .ctxReset qu mf mx) errno)
    have h1 : ∀ l, (∀ e ∈ l, Ev.Plain e) → evsLab g s (.devQuiesced errno :: l) = .devQuiesced errno :: l :=
      fun l h => by rw [e0, evsLab_plain h]
    unfold deviceQuiesced
    rw [if_neg hn]
    dsimp only
    by_cases he : errno = 0
    · rw [if_pos he]
      refine ⟨rfl, ?_, H.weak.refl _⟩
      dsimp only
      rw [h1 _ (resetQuiesced_plain cfg env _)]
    · rw [if_neg he]
      exact ⟨rfl, rfl, H.weak.refl _⟩
  | msg m =>
    have hn : ∀ m', ¬ (cfg.hasQuiesce = false ∨ Pending.msg m' = .none) := fun m' => by simp [hq]
    show Matches g s W _ (deviceQuiesced cfg env (St.mk mg d ir pc cn (.msg { m with hdr := g m.hdr }) qu mf mx) errno)
    unfold deviceQuiesced
    rw [if_neg (hn _), if_neg (hn _)]
    dsimp only
    by_cases he : errno = 0
    · rw [if_pos he, if_pos he]
      have h := handleRequest_lab H 0 (St.mk mg d ir pc cn (.msg m) true mf mx) m
      have h' : handleRequest cfg env 0 (St.mk mg d ir pc cn (.msg { m with hdr := g m.hdr }) true mf mx)
        { m with hdr := g m.hdr } = handleRequest cfg env 0 (St.lab g (St.mk mg d ir pc cn (.msg m) true mf mx))
          { m with hdr := g m.hdr } := rfl
      rw [h']
      refine ⟨by dsimp only; rw [h.st]; rfl, ?_, h.res⟩
      dsimp only
      rw [e0, h.evs]
    · rw [if_neg he, if_neg he]
      refine ⟨rfl, ?_, H.weak.refl _⟩
      dsimp only
      rw [e0, evsLab_append, evsLab_plain (plain_closes _)]
      rfl

theorem transfer_lab (H : Relabels g s W cfg env) (st : St) (lost : Bool) :
    Matches g s W (transfer cfg env st lost) (transfer cfg env (st.lab g) lost) := by
  unfold transfer
  by_cases hp : st.pending ≠ .none
  · rw [if_pos hp, if_pos (show (st.lab g).pending ≠ .none from fun h => hp (lab_none.mp h))]
    exact ⟨rfl, rfl, H.weak.refl _⟩
  rw [if_neg hp, if_neg (show ¬ (st.lab g).pending ≠ .none from fun h => hp (fun h' => h (lab_none.mpr h')))]
  by_cases hc : lost = true ∧ st.conn = true
  · rw [if_pos hc, if_pos (show lost = true ∧ (st.lab g).conn = true from hc), resetCtx_lab]
    refine ⟨rfl, ?_, H.weak.refl _⟩
    dsimp only
    rw [evsLab_plain (resetCtx_plain cfg env 0 st)]
  · rw [if_neg hc, if_neg (show ¬ (lost = true ∧ (st.lab g).conn = true) from hc)]
    exact ⟨rfl, rfl, H.weak.refl _⟩

theorem call_lab (hw : Weak W) (st : St) (op : Op) (H : ∀ env, op.env? = some env → Relabels g s W cfg env) :
    Matches g s W (call cfg st op) (call cfg (st.lab g) (op.lab g)) := by
  cases op with
  | run env i => exact poll_lab (H env rfl) st i
  | quiesced env e => exact deviceQuiesced_lab (H env rfl) st e
  | transfer env lost => exact transfer_lab (H env rfl) st lost
  | attach n =>
    show Matches g s W (attach st n) (attach (st.lab g) n)
    unfold attach
    by_cases hc : st.conn = true
    · rw [if_pos hc, if_pos (show (st.lab g).conn = true from hc)]; exact ⟨rfl, rfl, hw.refl _⟩
    · rw [if_neg hc, if_neg (show ¬ (st.lab g).conn = true from hc)]
      cases n <;> exact ⟨rfl, rfl, hw.refl _⟩
  | config f => exact ⟨rfl, rfl, hw.refl _⟩
  | mark sgl =>
    obtain ⟨mg, d, ir, pc, cn, pd, qu, mf, mx⟩ := st
    show Matches g s W _ (call cfg (St.mk mg d ir pc cn (pd.lab g) qu mf mx) (.mark sgl))
    unfold call
    cases d with
    | none => exact ⟨rfl, rfl, hw.refl _⟩
    | some c => dsimp only; cases Dma.sglMark c sgl <;> exact ⟨rfl, rfl, hw.refl _⟩
  | trigger wr sub =>
    refine ⟨rfl, ?_, hw.refl _⟩
    exact (evsLab_plain (plain_inner (inner_flatMap inner_ofIrq _))).symm

theorem run_lab (hw : Weak W) (ops : List Op) (st : St)
    (H : ∀ op ∈ ops, ∀ env, op.env? = some env → Relabels g s W cfg env) :
    run cfg (st.lab g) (ops.map (Op.lab g)) = ((run cfg st ops).1.lab g, evsLab g s (run cfg st ops).2) := by
  induction ops generalizing st with
  | nil => rfl
  | cons op ops ih =>
    have h := call_lab hw st op (H op (.head _))
    have hf := hw.fault h.res
    rw [List.map_cons, run, run]
    dsimp only
    by_cases hx : (call cfg st op).res.isFault = true
    · rw [if_pos hx, if_pos (hf ▸ hx), h.st, h.evs]
    · rw [if_neg hx, if_neg (hf ▸ hx), h.st, h.evs, ih _ (fun o ho => H o (.tail _ ho))]
      dsimp only
      rw [evsLab_append, evsLab_cons .ret]
      rfl

end

/-! ### The id -/

/-- The header without what does not matter: id, error field, and all flags but the one that asks for no reply. -/
def unnamed (h : Wire.Hdr) : Wire.Hdr :=
  { id := 0, cmd := h.cmd, size := h.size, flags := if h.noReply = true then Wire.F_NO_REPLY else 0, err := 0 }

/-- A message sent with zeroes in its first two bytes, the id. -/
def zeroId (w : Wire.Sent) : Wire.Sent := { w with bytes := (w.bytes.take 2).map (fun _ => 0#8) ++ w.bytes.drop 2 }

theorem zeroId_eq {w w' : Wire.Sent} (h : zeroId w = zeroId w') :
    w.fds = w'.fds ∧ w.bytes.length = w'.bytes.length ∧ w.bytes.drop 2 = w'.bytes.drop 2 := by
  obtain ⟨b, f⟩ := w
  obtain ⟨b', f'⟩ := w'
  unfold zeroId at h
  simp only [Wire.Sent.mk.injEq] at h
  obtain ⟨h, hf⟩ := h
  have hl := congrArg List.length h
  simp only [List.length_append, List.length_map, List.length_take, List.length_drop] at hl
  have h2 : min 2 b.length = min 2 b'.length := by omega
  refine ⟨hf, ?_, (List.append_inj h (by simp [h2])).2⟩
  show b.length = b'.length
  omega

theorem zeroId_take (id n : Nat) (rest : List Byte) (f : List Fd) :
    zeroId { bytes := (enc 2 id ++ rest).take n, fds := f } = { bytes := (enc 2 0 ++ rest).take n, fds := f } := by
  have e : ∀ i, ∃ x y, enc 2 i = [x, y] := fun i => ⟨_, _, rfl⟩
  obtain ⟨x, y, h1⟩ := e id
  have h2 : enc 2 0 = [0#8, 0#8] := by decide
  rw [h1, h2]
  unfold zeroId
  match n with
  | 0 => rfl
  | 1 => rfl
  | n + 2 => rfl

theorem reply_unnamed (snd : Wire.Send) (h : Wire.Hdr) (b : Wire.Body) (fds : List (Option Fd)) (err : Nat) :
    Wire.reply snd (unnamed h) b fds err =
      ((Wire.reply snd h b fds err).1, (Wire.reply snd h b fds err).2.map zeroId) := by
  have hgo : ∀ n l, Wire.sendIovec.go snd (Wire.mkHdr 0 h.cmd true n err) l fds =
      ((Wire.sendIovec.go snd (Wire.mkHdr h.id h.cmd true n err) l fds).1,
        (Wire.sendIovec.go snd (Wire.mkHdr h.id h.cmd true n err) l fds).2.map zeroId) := by
    intro n l
    unfold Wire.sendIovec.go
    by_cases hf : fds.any Option.isNone = true
    · rw [if_pos hf, if_pos hf]; rfl
    rw [if_neg hf, if_neg hf]
    dsimp only
    have hl : ((Wire.mkHdr 0 h.cmd true n err).bytes ++ l).length = ((Wire.mkHdr h.id h.cmd true n err).bytes ++ l).length := by
      simp [Wire.Hdr.bytes, enc_length]
    rw [hl]
    cases snd ((Wire.mkHdr h.id h.cmd true n err).bytes ++ l).length with
    | error e => rfl
    | ok k =>
      dsimp only
      have hz := zeroId_take h.id k (enc 2 h.cmd ++ enc 4 ((Wire.HDR + n) % U32) ++
        enc 4 (Wire.mkHdr h.id h.cmd true n err).flags ++ enc 4 (Wire.mkHdr h.id h.cmd true n err).err ++ l)
        (fds.filterMap _root_.id)
      have e1 : ∀ i, (Wire.mkHdr i h.cmd true n err).bytes ++ l = enc 2 i ++ (enc 2 h.cmd ++ enc 4 ((Wire.HDR + n) % U32) ++
          enc 4 (Wire.mkHdr h.id h.cmd true n err).flags ++ enc 4 (Wire.mkHdr h.id h.cmd true n err).err ++ l) := by
        intro i
        simp only [Wire.Hdr.bytes, List.append_assoc]
        rfl
      rw [e1 0, e1 h.id, List.map_cons, hz]
      rfl
  unfold Wire.reply Wire.sendIovec
  cases b with
  | null n =>
    cases n with
    | zero => exact hgo _ _
    | succ n => rfl
  | bytes l => exact hgo _ _

theorem unnamed_noReply (h : Wire.Hdr) : (unnamed h).noReply = h.noReply := by
  unfold unnamed Wire.Hdr.noReply
  dsimp only
  by_cases hx : h.flags.testBit 4 = true
  · rw [if_pos hx, hx]; decide
  · rw [if_neg hx]; simp only [Bool.not_eq_true] at hx; rw [hx]; decide

theorem weak_eq : Weak Eq := ⟨fun _ => rfl, fun h => h ▸ rfl, fun h => h ▸ rfl⟩

theorem evsLab_sents (g : Wire.Hdr → Wire.Hdr) (f : Wire.Sent → Wire.Sent) (ws : List Wire.Sent) :
    evsLab g (fun w => [f w]) (ws.map Ev.sent) = (ws.map f).map Ev.sent := by
  induction ws with
  | nil => rfl
  | cons w ws ih => rw [List.map_cons, evsLab_cons, ih]; rfl

theorem relabels_unnamed (cfg : Cfg) (env : Env) : Relabels unnamed (fun w => [zeroId w]) Eq cfg env := by
  refine ⟨weak_eq, fun _ => rfl, fun k st h b fds err => ?_⟩
  unfold doReply
  rw [unnamed_noReply]
  by_cases hn : h.noReply = true
  · rw [if_pos hn, if_pos hn]; exact ⟨rfl, rfl, rfl⟩
  rw [if_neg hn, if_neg hn]
  dsimp only
  rw [reply_unnamed]
  cases hr : (Wire.reply env.snd h b fds (err % U32)).1 with
  | ok u => exact ⟨rfl, (evsLab_sents ..).symm, rfl⟩
  | error e =>
    dsimp only
    by_cases he : e = ECONNRESET ∨ e = ENOMSG
    · rw [if_pos he, if_pos he, resetCtx_lab]
      refine ⟨rfl, ?_, rfl⟩
      dsimp only
      rw [evsLab_append, evsLab_sents, evsLab_plain (resetCtx_plain cfg env k st)]
    · rw [if_neg he, if_neg he]
      exact ⟨rfl, (evsLab_sents ..).symm, rfl⟩

/-! ### The reply flag -/

/-- The header with the command and the size only, no reply asked for. -/
def hush (h : Wire.Hdr) : Wire.Hdr := { id := 0, cmd := h.cmd, size := h.size, flags := Wire.F_NO_REPLY, err := 0 }

/-- With the reply left out the call succeeds even if there was no way to send it. -/
def Lenient (r r' : Res Unit) : Prop := r' = r ∨ (r' = .ok () ∧ (r = .err Wire.EBADF ∨ r = .err EFAULT))

theorem weak_lenient : Weak Lenient := by
  refine ⟨fun _ => .inl rfl, fun h => ?_, fun h => ?_⟩
  · rcases h with rfl | ⟨rfl, rfl | rfl⟩ <;> rfl
  · rcases h with rfl | ⟨rfl, rfl | rfl⟩
    · exact .inl rfl
    · exact .inr ⟨rfl, .inl rfl⟩
    · exact .inr ⟨rfl, .inr rfl⟩

theorem reply_healthy {snd : Wire.Send} (hs : Wire.Healthy snd) (h : Wire.Hdr) (b : Wire.Body) (fds : List (Option Fd))
    (err : Nat) : (Wire.reply snd h b fds err).1 = .ok () ∨ (Wire.reply snd h b fds err).1 = .error Wire.EBADF ∨
      (Wire.reply snd h b fds err).1 = .error EFAULT := by
  have hgo : ∀ n l, n = l.length → (Wire.sendIovec.go snd (Wire.mkHdr h.id h.cmd true n err) l fds).1 = .ok () ∨
      (Wire.sendIovec.go snd (Wire.mkHdr h.id h.cmd true n err) l fds).1 = .error Wire.EBADF := by
    intro n l hn
    unfold Wire.sendIovec.go
    by_cases hf : fds.any Option.isNone = true
    · rw [if_pos hf]; exact .inr rfl
    rw [if_neg hf]
    dsimp only
    rw [hs]
    dsimp only
    have hx : ¬ ((Wire.mkHdr h.id h.cmd true n err).bytes ++ l).length < (Wire.mkHdr h.id h.cmd true n err).size := by
      have e1 : ((Wire.mkHdr h.id h.cmd true n err).bytes ++ l).length = 16 + l.length := by
        simp only [Wire.Hdr.bytes, List.length_append, enc_length]
      have e2 : (Wire.mkHdr h.id h.cmd true n err).size ≤ 16 + n := Nat.mod_le _ _
      omega
    rw [if_neg hx]
    exact .inl rfl
  cases b with
  | null n =>
    cases n with
    | zero =>
      have e : Wire.reply snd h (.null 0) fds err = Wire.sendIovec.go snd (Wire.mkHdr h.id h.cmd true 0 err) [] fds := rfl
      rw [e]
      rcases hgo 0 [] rfl with h1 | h1
      · exact .inl h1
      · exact .inr (.inl h1)
    | succ n => exact .inr (.inr rfl)
  | bytes l =>
    have e : Wire.reply snd h (.bytes l) fds err =
      Wire.sendIovec.go snd (Wire.mkHdr h.id h.cmd true l.length err) l fds := rfl
    rw [e]
    rcases hgo l.length l rfl with h1 | h1
    · exact .inl h1
    · exact .inr (.inl h1)

theorem evsLab_drop (g : Wire.Hdr → Wire.Hdr) (ws : List Wire.Sent) : evsLab g (fun _ => []) (ws.map Ev.sent) = [] := by
  induction ws with
  | nil => rfl
  | cons w ws ih => rw [List.map_cons, evsLab_cons, ih]; rfl

theorem relabels_hush (cfg : Cfg) {env : Env} (hs : Wire.Healthy env.snd) :
    Relabels hush (fun _ => []) Lenient cfg env := by
  refine ⟨weak_lenient, fun _ => rfl, fun k st h b fds err => ?_⟩
  unfold doReply
  rw [if_pos (show (hush h).noReply = true from by unfold hush Wire.Hdr.noReply; dsimp only; decide)]
  by_cases hn : h.noReply = true
  · rw [if_pos hn]; exact ⟨rfl, rfl, .inl rfl⟩
  rw [if_neg hn]
  dsimp only
  rcases reply_healthy hs h b fds (err % U32) with hr | hr | hr
  · rw [hr]; exact ⟨rfl, (evsLab_drop ..).symm, .inl rfl⟩
  · rw [hr]; exact ⟨rfl, (evsLab_drop ..).symm, .inr ⟨rfl, .inl rfl⟩⟩
  · rw [hr]; exact ⟨rfl, (evsLab_drop ..).symm, .inr ⟨rfl, .inr rfl⟩⟩

/-! ### Two histories -/

/-- Two headers of the same command and size; `r`: also both ask for a reply, or neither does. -/
def SameAsk (r : Bool) (h h' : Wire.Hdr) : Prop := h.cmd = h'.cmd ∧ h.size = h'.size ∧ (r = true → h.noReply = h'.noReply)

/-- Two calls that differ in the headers of requests at most. -/
inductive Op.Akin (r : Bool) : Op → Op → Prop
  | same (op : Op) : Op.Akin r op op
  | req {env : Env} {h h' : Wire.Hdr} (b : List Byte) (f : List Fd) :
      SameAsk r h h' → Op.Akin r (.run env (.req h b f)) (.run env (.req h' b f))
  | bad {env : Env} {h h' : Wire.Hdr} (f : List Fd) (e : Nat) :
      SameAsk r h h' → Op.Akin r (.run env (.bad h f e)) (.run env (.bad h' f e))

/-- Two events that differ in the headers of requests and in the id of messages sent at most. -/
inductive Ev.Akin (r : Bool) : Ev → Ev → Prop
  | same (e : Ev) : Ev.Akin r e e
  | got {h h' : Wire.Hdr} (f : List Fd) : SameAsk r h h' → Ev.Akin r (.got h f) (.got h' f)
  | exec {h h' : Wire.Hdr} : SameAsk r h h' → Ev.Akin r (.exec h) (.exec h')
  | sent {w w' : Wire.Sent} : w.fds = w'.fds → w.bytes.length = w'.bytes.length → w.bytes.drop 2 = w'.bytes.drop 2 →
      Ev.Akin r (.sent w) (.sent w')

/-- Two waiting requests. -/
inductive Pending.Akin (r : Bool) : Pending → Pending → Prop
  | same (p : Pending) : Pending.Akin r p p
  | msg {h h' : Wire.Hdr} (b : List Byte) (f : List Fd) :
      SameAsk r h h' → Pending.Akin r (.msg ⟨h, b, f⟩) (.msg ⟨h', b, f⟩)

/-- Two states that differ in the header of the waiting request at most. -/
def St.Akin (r : Bool) (st st' : St) : Prop :=
  { st with pending := .none } = { st' with pending := .none } ∧ Pending.Akin r st.pending st'.pending

theorem unnamed_eq {h h' : Wire.Hdr} : unnamed h = unnamed h' ↔ SameAsk true h h' := by
  constructor
  · intro e
    have hn := unnamed_noReply h
    rw [e, unnamed_noReply] at hn
    simp only [unnamed, Wire.Hdr.mk.injEq] at e
    exact ⟨e.2.1, e.2.2.1, fun _ => hn.symm⟩
  · rintro ⟨h1, h2, h3⟩
    unfold unnamed
    rw [h1, h2, h3 rfl]

theorem hush_eq {h h' : Wire.Hdr} : hush h = hush h' ↔ SameAsk false h h' := by
  constructor
  · intro e
    simp only [hush, Wire.Hdr.mk.injEq] at e
    exact ⟨e.2.1, e.2.2.1, fun h => by cases h⟩
  · rintro ⟨h1, h2, _⟩
    unfold hush
    rw [h1, h2]

section
variable {g : Wire.Hdr → Wire.Hdr} {r : Bool}

theorem ops_lab (hg : ∀ {h h'}, g h = g h' ↔ SameAsk r h h') {ops ops' : List Op} (h : List.Forall₂ (Op.Akin r) ops ops') :
    ops.map (Op.lab g) = ops'.map (Op.lab g) := by
  induction h with
  | nil => rfl
  | cons h _ ih =>
    rw [List.map_cons, List.map_cons, ih]
    congr 1
    cases h with
    | same op => rfl
    | req b f h => simp only [Op.lab, inLab, hg.mpr h]
    | bad f e h => simp only [Op.lab, inLab, hg.mpr h]

theorem st_lab (hg : ∀ {h h'}, g h = g h' ↔ SameAsk r h h') {st st' : St} (h : st.lab g = st'.lab g) : St.Akin r st st' := by
  obtain ⟨mg, d, ir, pc, cn, pd, qu, mf, mx⟩ := st
  obtain ⟨mg', d', ir', pc', cn', pd', qu', mf', mx'⟩ := st'
  simp only [St.lab, St.mk.injEq] at h
  obtain ⟨rfl, rfl, rfl, rfl, rfl, hp, rfl, rfl, rfl⟩ := h
  refine ⟨rfl, ?_⟩
  dsimp only
  cases pd with
  | none => cases pd' <;> first | exact .same _ | (simp [Pending.lab] at hp)
  | ctxReset => cases pd' <;> first | exact .same _ | (simp [Pending.lab] at hp)
  | msg m =>
    cases pd' with
    | none => simp [Pending.lab] at hp
    | ctxReset => simp [Pending.lab] at hp
    | msg m' =>
      obtain ⟨h, b, f⟩ := m
      obtain ⟨h', b', f'⟩ := m'
      simp only [Pending.lab, Pending.msg.injEq, Msg.mk.injEq] at hp
      obtain ⟨e, rfl, rfl⟩ := hp
      exact .msg _ _ (hg.mp e)

theorem st_lab' (hg : ∀ {h h'}, g h = g h' ↔ SameAsk r h h') {st st' : St} (h : St.Akin r st st') : st.lab g = st'.lab g := by
  obtain ⟨mg, d, ir, pc, cn, pd, qu, mf, mx⟩ := st
  obtain ⟨mg', d', ir', pc', cn', pd', qu', mf', mx'⟩ := st'
  obtain ⟨h, hp⟩ := h
  simp only [St.mk.injEq] at h
  obtain ⟨rfl, rfl, rfl, rfl, rfl, _, rfl, rfl, rfl⟩ := h
  dsimp only at hp
  cases hp with
  | same p => rfl
  | msg b f h => simp only [St.lab, Pending.lab, hg.mpr h]
end

theorem forall₂_flatMap {A : Ev → Ev → Prop} {t : Ev → List Ev} (hrel : ∀ e e', t e ≠ [] → t e = t e' → A e e') {l l' : List Ev}
    (hl : ∀ e ∈ l, ∃ x, t e = [x]) (hl' : ∀ e ∈ l', ∃ x, t e = [x]) (h : l.flatMap t = l'.flatMap t) :
    List.Forall₂ A l l' := by
  induction l generalizing l' with
  | nil =>
    cases l' with
    | nil => exact .nil
    | cons e' l' => obtain ⟨x, hx⟩ := hl' e' (.head _); simp [hx] at h
  | cons e l ih =>
    obtain ⟨x, hx⟩ := hl e (.head _)
    cases l' with
    | nil => simp [hx] at h
    | cons e' l' =>
      obtain ⟨x', hx'⟩ := hl' e' (.head _)
      rw [List.flatMap_cons, List.flatMap_cons, hx, hx', List.singleton_append, List.singleton_append, List.cons.injEq] at h
      exact .cons (hrel e e' (by simp [hx]) (by rw [hx, hx', h.1])) (ih (fun e h => hl e (.tail _ h)) (fun e h => hl' e (.tail _ h)) h.2)

/-- **C111**, the id.  Two histories that differ in the ids of requests, in the error field and in flags other than the
one that asks for no reply: the same state (but for that header, if a request waits), the same events in the same order,
the same messages but for the id. Whatever the operating system and the device answer. -/
theorem C111_id (cfg : Cfg) (st st' : St) (hst : St.Akin true st st') (ops ops' : List Op)
    (h : List.Forall₂ (Op.Akin true) ops ops') :
    St.Akin true (run cfg st ops).1 (run cfg st' ops').1 ∧
      List.Forall₂ (Ev.Akin true) (run cfg st ops).2 (run cfg st' ops').2 := by
  have h1 := run_lab (cfg := cfg) weak_eq ops st (fun op _ env _ => relabels_unnamed cfg env)
  have h2 := run_lab (cfg := cfg) weak_eq ops' st' (fun op _ env _ => relabels_unnamed cfg env)
  rw [st_lab' unnamed_eq hst, ops_lab unnamed_eq h, h2] at h1
  obtain ⟨e1, e2⟩ := Prod.mk.inj h1
  refine ⟨st_lab unnamed_eq e1.symm, ?_⟩
  have single : ∀ e, ∃ x, Ev.lab unnamed (fun w => [zeroId w]) e = [x] := fun e => by cases e <;> exact ⟨_, rfl⟩
  refine forall₂_flatMap (fun e e' _ he => ?_) (fun e _ => single e) (fun e _ => single e) e2.symm
  cases e <;> cases e' <;> simp only [Ev.lab, List.map_cons, List.map_nil, List.cons.injEq, and_true, Ev.got.injEq,
    Ev.exec.injEq, Ev.sent.injEq, reduceCtorEq] at he <;> first
    | (obtain ⟨he, rfl⟩ := he; exact .got _ (unnamed_eq.mp he))
    | exact .exec (unnamed_eq.mp he)
    | (obtain ⟨a, b, c⟩ := zeroId_eq he; exact .sent a b c)
    | exact .same _
    | (rw [he]; exact .same _)

/-- The events without the messages sent. -/
def unsaid (l : List Ev) : List Ev := l.filter fun e => match e with | .sent _ => false | _ => true

theorem evsLab_unsaid (g : Wire.Hdr → Wire.Hdr) (l : List Ev) :
    evsLab g (fun _ => []) (unsaid l) = evsLab g (fun _ => []) l := by
  induction l with
  | nil => rfl
  | cons e l ih =>
    rw [evsLab_cons, ← ih]
    cases e <;> rfl

/-- **C111**, the reply flag.  If what is sent arrives whole, two histories with requests of the same commands, sizes,
payloads and descriptors lead to the same state, through the same events but for the messages sent, whichever requests ask
for a reply. -/
theorem C111_reply (cfg : Cfg) (st st' : St) (hst : St.Akin false st st') (ops ops' : List Op)
    (h : List.Forall₂ (Op.Akin false) ops ops') (hs : ∀ op ∈ ops, ∀ env, op.env? = some env → Wire.Healthy env.snd) :
    St.Akin false (run cfg st ops).1 (run cfg st' ops').1 ∧
      List.Forall₂ (Ev.Akin false) (unsaid (run cfg st ops).2) (unsaid (run cfg st' ops').2) := by
  have hs' : ∀ op ∈ ops', ∀ env, op.env? = some env → Wire.Healthy env.snd := by
    clear hst
    induction h with
    | nil => intro op h; cases h
    | cons h _ ih =>
      intro op ho env he
      rcases List.mem_cons.mp ho with rfl | ho
      · refine hs _ (.head _) env ?_
        cases h <;> exact he
      · exact ih (fun o h => hs o (.tail _ h)) op ho env he
  have h1 := run_lab (cfg := cfg) weak_lenient ops st (fun op ho env he => relabels_hush cfg (hs op ho env he))
  have h2 := run_lab (cfg := cfg) weak_lenient ops' st' (fun op ho env he => relabels_hush cfg (hs' op ho env he))
  rw [st_lab' hush_eq hst, ops_lab hush_eq h, h2] at h1
  obtain ⟨e1, e2⟩ := Prod.mk.inj h1
  refine ⟨st_lab hush_eq e1.symm, ?_⟩
  rw [← evsLab_unsaid, ← evsLab_unsaid _ (run cfg st ops).2] at e2
  have single : ∀ l, ∀ e ∈ unsaid l, ∃ x, Ev.lab hush (fun _ => []) e = [x] := fun l e he => by
    have := (List.mem_filter.mp he).2
    cases e <;> first | exact ⟨_, rfl⟩ | cases this
  refine forall₂_flatMap (fun e e' h0 he => ?_) (single _) (single _) e2.symm
  cases e <;> cases e' <;> simp only [Ev.lab, List.map_nil, List.cons.injEq, and_true, Ev.got.injEq,
    Ev.exec.injEq, reduceCtorEq] at he <;> first
    | (obtain ⟨he, rfl⟩ := he; exact .got _ (hush_eq.mp he))
    | exact .exec (hush_eq.mp he)
    | exact .same _
    | (rw [he]; exact .same _)
    | exact absurd rfl h0

/-! ### Without the hypothesis, and examples -/

section
open Demo

/-- If the reply cannot be sent, asking for one makes a difference: the server resets the device and drops the client. -/
theorem C111_lossy_violated :
    let broken : Env := { env with snd := fun _ => .error Wire.EPIPE }
    let op : Op := .run broken (req 1 2 0 (mapBody 0x100000) [5])
    let op' : Op := .run broken (req 1 2 16 (mapBody 0x100000) [5])
    Op.Akin false op op' ∧ (call cfg Demo.st op).st.conn = false ∧
      (call cfg Demo.st op).st.dma.map (·.regions.length) = some 0 ∧
      (call cfg Demo.st op').st.conn = true ∧ (call cfg Demo.st op').st.dma.map (·.regions.length) = some 1 :=
  ⟨.req _ _ ⟨rfl, rfl, fun h => by cases h⟩, by decide +kernel, by decide +kernel, by decide +kernel, by decide +kernel⟩

/-- The same id twice, a deferred request with another id and unused flags. -/
def sameIds : List Op :=
  [.run env (req 1 2 0 (mapBody 0x100000) [5]), .run busy (req 1 3 0 (unmapBody 0x100000) []), .quiesced env 0]
def otherIds : List Op :=
  [.run env (req 7 2 64 (mapBody 0x100000) [5]), .run busy (req 9 3 0 (unmapBody 0x100000) []), .quiesced env 0]
/-- … with the first reply not wanted. -/
def noneIds : List Op :=
  [.run env (req 7 2 16 (mapBody 0x100000) [5]), .run busy (req 9 3 0 (unmapBody 0x100000) []), .quiesced env 0]

example := C111_id cfg Demo.st Demo.st ⟨rfl, .same _⟩ sameIds otherIds
  (.cons (.req _ _ ⟨rfl, rfl, fun _ => rfl⟩) (.cons (.req _ _ ⟨rfl, rfl, fun _ => rfl⟩) (.cons (.same _) .nil)))

example := C111_reply cfg Demo.st Demo.st ⟨rfl, .same _⟩ sameIds noneIds
  (.cons (.req _ _ ⟨rfl, rfl, fun h => by cases h⟩) (.cons (.req _ _ ⟨rfl, rfl, fun h => by cases h⟩)
    (.cons (.same _) .nil)))
  (by
    intro op h e he
    simp only [sameIds, List.mem_cons, List.not_mem_nil, or_false] at h
    rcases h with rfl | rfl | rfl <;> cases he <;> exact fun _ => rfl)

/-- The replies of the three: ids and number differ, nothing else. -/
example : (sents (run cfg Demo.st sameIds).2).map (fun w => (leAt w.bytes 0 2, w.bytes.length)) = [(1, 16), (1, 40)] ∧
    (sents (run cfg Demo.st otherIds).2).map (fun w => (leAt w.bytes 0 2, w.bytes.length)) = [(7, 16), (9, 40)] ∧
    (sents (run cfg Demo.st noneIds).2).map (fun w => (leAt w.bytes 0 2, w.bytes.length)) = [(9, 40)] := by decide +kernel

end

end Verif.Server
