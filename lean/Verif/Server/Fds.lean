import Verif.Server.Reset

/-! # Descriptors of requests: taken over once or closed once (C59) -/

namespace Verif.Server
open Verif
open Verif.Dma (Fd)

/-- How often `x` arrived with a request. -/
def gotOf (evs : List Ev) (x : Fd) : Nat :=
  (evs.flatMap fun e => match e with | .got _ fds => fds | _ => []).count x

/-- Owners of `x`: DMA regions, interrupt vectors, and the request that waits for a quiesce. -/
def inRegions (st : St) (x : Fd) : Nat := match st.dma with | none => 0 | some c => (c.regions.map (·.fd)).count (some x)
def inVectors (st : St) (x : Fd) : Nat :=
  [st.irqs.err, st.irqs.req].count (some x) + st.irqs.efds.count (some x)
def inPending (st : St) (x : Fd) : Nat := match st.pending with | .msg m => m.fds.count x | _ => 0

/-- All owners of `x`. -/
def owners (st : St) (x : Fd) : Nat := inRegions st x + inVectors st x + inPending st x

theorem gotOf_append (a b : List Ev) (x : Fd) : gotOf (a ++ b) x = gotOf a x + gotOf b x := by
  simp only [gotOf, List.flatMap_append, List.count_append]

theorem gotOf_cons (e : Ev) (l : List Ev) (x : Fd) : gotOf (e :: l) x = gotOf [e] x + gotOf l x :=
  gotOf_append [e] l x

theorem gotOf_inner {l : List Ev} (h : ∀ e ∈ l, e.Inner) (x : Fd) : gotOf l x = 0 := by
  induction l with
  | nil => rfl
  | cons e l ih =>
    rw [gotOf_cons, ih (fun e he => h e (.tail _ he))]
    have := h e (.head _)
    cases e <;> first | rfl | exact this.elim

theorem gotOf_map {α : Type} (f : α → Ev) (l : List α) (x : Fd) (h : ∀ a hd fds, f a ≠ .got hd fds) :
    gotOf (l.map f) x = 0 := by
  induction l with
  | nil => rfl
  | cons a l ih =>
    rw [List.map_cons, gotOf_cons, ih]
    cases hf : f a <;> first | rfl | exact absurd hf (h _ _ _)

theorem times_eq (st : St) (x : Fd) : st.irqs.times x = inVectors st x := by
  simp only [Irq.Irqs.times, inVectors, Irq.ind, List.count_cons, List.count_nil]
  cases h1 : st.irqs.err <;> cases h2 : st.irqs.req <;> simp [Nat.add_comm]

/-- The books balance: `n` descriptors `x` come in besides those of the trace. -/
def Bal (x : Fd) (st : St) (n : Nat) (evs : List Ev) (st' : St) : Prop :=
  owners st x + n + gotOf evs x = owners st' x + closesOf evs x

theorem Bal.refl (x : Fd) (st : St) : Bal x st 0 [] st := rfl

theorem Bal.trans {x : Fd} {a b c : St} {n m : Nat} {e f : List Ev} (h1 : Bal x a n e b) (h2 : Bal x b m f c) :
    Bal x a (n + m) (e ++ f) c := by
  unfold Bal at *
  rw [gotOf_append, closesOf_append]
  omega

/-- Events that neither bring nor close descriptors. -/
theorem Bal.idle {x : Fd} {st st' : St} {evs : List Ev} (h1 : gotOf evs x = 0) (h2 : closesOf evs x = 0)
    (h3 : owners st' x = owners st x) : Bal x st 0 evs st' := by
  unfold Bal; rw [h1, h2, h3]

theorem owners_of {a b : St} (h1 : b.dma = a.dma) (h2 : b.irqs = a.irqs) (h3 : b.pending = a.pending) (x : Fd) :
    owners b x = owners a x := by
  unfold owners inRegions inVectors inPending
  rw [h1, h2, h3]

theorem count_map_some (l : List Fd) (x : Fd) : (l.map some).count (some x) = l.count x := by
  induction l with
  | nil => rfl
  | cons a l ih => simp [List.count_cons, ih]

/-- A DMA map request without the two defects of C08: the mapping succeeds and the region is new. -/
def CleanMap (env : Env) (st : St) (m : Msg) : Prop :=
  m.hdr.cmd = 2 → ∀ c, st.dma = some c → (Dma.Op.map env.os (mapReq m.body m.fds)).Clean c

theorem bal_exec {cfg : Cfg} {env : Env} (ho : env.os.Ok) {st : St} {m : Msg} (hc : CleanMap env st m) (x : Fd) :
    owners st x + m.fds.count x =
      owners (exec cfg env st m).st x + closesOf (exec cfg env st m).evs x + (exec cfg env st m).left.count (some x) := by
  have hp := (tame_exec cfg env st m).same.pending
  cases exec_touch cfg env st m with
  | none h1 h2 h3 h4 => rw [owners_of h1 h2 hp, h3, h4, count_map_some]; omega
  | map c hcmd hd h1 h2 h3 h4 =>
    have h := Dma.conserve_step cfg.dma c (.map env.os (mapReq m.body m.fds)) x ho (mapReq_bounded ..) (hc hcmd c hd)
    rw [h3, h4]
    unfold owners inVectors inPending
    rw [h2, hp]
    have e1 : inRegions st x = Dma.holders c x := by unfold inRegions; rw [hd]; rfl
    have e2 : inRegions (exec cfg env st m).st x =
        Dma.holders (Dma.step cfg.dma c (.map env.os (mapReq m.body m.fds))).1 x := by unfold inRegions; rw [h1]; rfl
    rw [e1, e2]
    have e3 : (Dma.Op.map env.os (mapReq m.body m.fds)).fds = m.fds := rfl
    rw [e3] at h
    omega
  | dma c op hd hm _ h1 h2 h3 h4 =>
    have hb : op.Bounded ∧ op.OSOk ∧ op.Clean c ∧ op.fds = [] ∧ (Dma.step cfg.dma c op).2.1.left = [] := by
      cases op with
      | map os q => exact absurd rfl (hm _ _)
      | mark sgl =>
        refine ⟨trivial, trivial, trivial, rfl, ?_⟩
        simp only [Dma.step]
        cases Dma.sglMark c sgl <;> rfl
      | _ => exact ⟨trivial, trivial, trivial, rfl, rfl⟩
    have h := Dma.conserve_step cfg.dma c op x hb.2.1 hb.1 hb.2.2.1
    rw [hb.2.2.2.1, hb.2.2.2.2] at h
    rw [h3, h4, count_map_some]
    unfold owners inVectors inPending
    rw [h2, hp]
    have e1 : inRegions st x = Dma.holders c x := by unfold inRegions; rw [hd]; rfl
    have e2 : inRegions (exec cfg env st m).st x = Dma.holders (Dma.step cfg.dma c op).1 x := by
      unfold inRegions; rw [h1]; rfl
    rw [e1, e2]
    simp only [List.count_nil] at h
    omega
  | irq _ h1 h2 h3 h4 =>
    have h := Irq.set_times cfg.irq env.eventfd st.irqs m.body (m.fds.map some) x
    dsimp only at h
    rw [count_map_some, ← h2] at h
    rw [h3, h4]
    have e1 := times_eq st x
    have e2 := times_eq (exec cfg env st m).st x
    unfold owners inRegions inPending
    rw [h1, hp, ← e1, ← e2]
    omega

theorem bal_resetQuiesced (cfg : Cfg) (env : Env) (st : St) (x : Fd) :
    Bal x st 0 (resetQuiesced cfg env st).evs (resetQuiesced cfg env st).st := by
  unfold resetQuiesced
  cases hd : dropDma cfg st.dma with
  | err e => exact Bal.refl ..
  | fault f => exact Bal.refl ..
  | ok y =>
    obtain ⟨d', ev1⟩ := y
    dsimp only
    have h1 : Bal x st 0 (ev1.flatMap (ofDma st.quiesced)) { st with dma := d' } := by
      unfold Bal owners inVectors inPending
      rw [gotOf_inner (inner_flatMap inner_ofDma _), closesOf_dma]
      rcases dropDma_step hd with ⟨e1, e2, e3⟩ | ⟨c, e1, e2, e3⟩
      · unfold inRegions; rw [e1, e2, e3]; rfl
      · have h := Dma.conserve_step cfg.dma c (.unmap true 0 0 .all) x trivial trivial trivial
        have e4 : (Dma.Op.unmap true 0 0 .all).fds = [] := rfl
        have e5 : (Dma.step cfg.dma c (.unmap true 0 0 .all)).2.1.left = [] := rfl
        rw [e4, e5] at h
        have e6 : inRegions st x = Dma.holders c x := by unfold inRegions; rw [e1]; rfl
        have e7 : inRegions { st with dma := d' } x =
            Dma.holders (Dma.step cfg.dma c (.unmap true 0 0 .all)).1 x := by unfold inRegions; rw [e2]; rfl
        rw [e6, e7, e3]
        simp only [List.count_nil] at h
        dsimp only
        omega
    have hs := same_deviceReset cfg env { st with dma := d' } .lostConn
    obtain ⟨t1, t2⟩ := deviceReset_tables cfg env { st with dma := d' } .lostConn
    have h2 : Bal x { st with dma := d' } 0 (deviceReset cfg env { st with dma := d' } .lostConn).2.2
        (deviceReset cfg env { st with dma := d' } .lostConn).1 :=
      Bal.idle (gotOf_inner (inner_deviceReset _ _ _ _) x) (closesOf_deviceReset ..) (owners_of t1 t2 hs.pending x)
    have h12 := h1.trans h2
    cases hi : Irq.reset cfg.irq (deviceReset cfg env { st with dma := d' } .lostConn).1.irqs with
    | err e => exact h12
    | fault f => exact h12
    | ok z =>
      obtain ⟨i', ev3⟩ := z
      dsimp only
      have ht := Irq.reset_times x hi
      have h3 : Bal x (deviceReset cfg env { st with dma := d' } .lostConn).1 0 (ev3.flatMap (ofIrq st.quiesced))
          { (deviceReset cfg env { st with dma := d' } .lostConn).1 with irqs := i', conn := false } := by
        unfold Bal owners
        rw [gotOf_inner (inner_flatMap inner_ofIrq _), closesOf_irq, ← times_eq, ← times_eq]
        unfold inRegions inPending
        dsimp only
        omega
      exact (h12.trans h3).trans (Bal.idle rfl rfl rfl : Bal x _ 0 [Ev.detach] _)

theorem bal_resetCtx (cfg : Cfg) (env : Env) (k : Nat) (st : St) (x : Fd) :
    Bal x st 0 (resetCtx cfg env k st).evs (resetCtx cfg env k st).st := by
  unfold resetCtx
  by_cases hq : cfg.hasQuiesce = true ∧ st.pending = .none
  · rw [if_pos hq]
    have hb : ∀ st', owners st' x = owners st x →
        Bal x st 0 (bracket .quiesce (.quiesce (env.quiesce k)) st.quiesced) st' := fun st' h =>
      Bal.idle (gotOf_inner inner_bracket x) (closesOf_bracket ..) h
    dsimp only
    cases hk : env.quiesce k with
    | none =>
      rw [hk] at hb
      exact (hb st rfl).trans (bal_resetQuiesced cfg env st x)
    | some e =>
      rw [hk] at hb
      dsimp only
      by_cases he : e = EBUSY
      · rw [if_pos he]
        refine hb _ ?_
        unfold owners inRegions inVectors inPending
        rw [hq.2]
      · rw [if_neg he]; exact hb _ rfl
  · rw [if_neg hq]; exact bal_resetQuiesced cfg env st x

theorem bal_sent (x : Fd) (st : St) (ws : List Wire.Sent) : Bal x st 0 (ws.map Ev.sent) st :=
  Bal.idle (gotOf_map _ _ _ (by simp)) (closesOf_map _ _ _ (by simp)) rfl

theorem bal_doReply (cfg : Cfg) (env : Env) (k : Nat) (st : St) (hd : Wire.Hdr) (body : Wire.Body)
    (fds : List (Option Fd)) (err : Nat) (x : Fd) :
    Bal x st 0 (doReply cfg env k st hd body fds err).evs (doReply cfg env k st hd body fds err).st := by
  unfold doReply
  by_cases hn : hd.noReply = true
  · rw [if_pos hn]; exact Bal.refl ..
  rw [if_neg hn]
  dsimp only
  cases (Wire.reply env.snd hd body fds (err % U32)).1 with
  | ok _ => exact bal_sent ..
  | error e =>
    dsimp only
    by_cases he : e = ECONNRESET ∨ e = ENOMSG
    · rw [if_pos he]; exact (bal_sent x st _).trans (bal_resetCtx cfg env k st x)
    · rw [if_neg he]; exact bal_sent ..

/-- Freeing a message. -/
theorem bal_free (x : Fd) (st : St) (left : List (Option Fd)) :
    Bal x st (left.count (some x)) (closes left ++ [.freed]) st := by
  unfold Bal
  rw [gotOf_append, closesOf_append, closesOf_closes, gotOf_inner (inner_closes _)]
  have h1 : gotOf [Ev.freed] x = 0 := rfl
  have h2 : closesOf [Ev.freed] x = 0 := rfl
  omega

theorem bal_handleRequest {cfg : Cfg} {env : Env} (ho : env.os.Ok) (k : Nat) {st : St} {m : Msg}
    (hc : CleanMap env st m) (x : Fd) (hf : (handleRequest cfg env k st m).res.isFault = false) :
    Bal x st (m.fds.count x) (handleRequest cfg env k st m).evs (handleRequest cfg env k st m).st := by
  have h1 := bal_exec (cfg := cfg) ho hc x
  have hg := gotOf_inner (tame_exec cfg env st m).evs x
  unfold handleRequest at hf ⊢
  dsimp only at hf ⊢
  by_cases he : (exec cfg env st m).res.isFault = true
  · rw [if_pos he] at hf; exact absurd he (by rw [hf]; simp)
  rw [if_neg he] at hf ⊢
  unfold finish at hf ⊢
  dsimp only at hf ⊢
  have h2 := bal_doReply cfg env k (exec cfg env st m).st m.hdr (exec cfg env st m).out (exec cfg env st m).outFds
    (replyErr (exec cfg env st m).res) x
  generalize doReply cfg env k (exec cfg env st m).st m.hdr (exec cfg env st m).out (exec cfg env st m).outFds
    (replyErr (exec cfg env st m).res) = o at hf h2 ⊢
  by_cases hr : o.res.isFault = true
  · rw [if_pos hr] at hf; exact absurd hr (by rw [hf]; simp)
  rw [if_neg hr]
  have h3 := h2.trans (bal_free x o.st (exec cfg env st m).left)
  unfold Bal at h3 ⊢
  dsimp only
  have e : Ev.exec m.hdr :: (exec cfg env st m).evs ++ o.evs ++ closes (exec cfg env st m).left ++ [Ev.freed] =
      Ev.exec m.hdr :: ((exec cfg env st m).evs ++ (o.evs ++ (closes (exec cfg env st m).left ++ [Ev.freed]))) := by
    simp
  rw [e, gotOf_cons, gotOf_append, closesOf_cons_ne (by simp), closesOf_append, hg]
  have h4 : gotOf [Ev.exec m.hdr] x = 0 := rfl
  omega

theorem handleRequest_pending {cfg : Cfg} {env : Env} {k : Nat} {st : St} {m : Msg} (hp : st.pending ≠ .none) :
    (handleRequest cfg env k st m).st.pending = st.pending := by
  have hs := (tame_exec cfg env st m).same.pending
  have h : ∀ st' hd b fds err, st'.pending ≠ .none →
      (doReply cfg env k st' hd b fds err).st.pending = st'.pending := by
    intro st' hd b fds err hp'
    unfold doReply
    by_cases hn : hd.noReply = true
    · rw [if_pos hn]
    rw [if_neg hn]
    dsimp only
    cases (Wire.reply env.snd hd b fds (err % U32)).1 with
    | ok _ => rfl
    | error e =>
      dsimp only
      by_cases he : e = ECONNRESET ∨ e = ENOMSG
      · rw [if_pos he]
        unfold resetCtx
        rw [if_neg (fun h => hp' h.2)]
        exact (resetQuiesced_frame cfg env st').1
      · rw [if_neg he]
  unfold handleRequest
  dsimp only
  by_cases he : (exec cfg env st m).res.isFault = true
  · rw [if_pos he]; exact hs
  rw [if_neg he, finish_st, h _ _ _ _ _ (by rw [hs]; exact hp)]
  exact hs

theorem bal_refuse (cfg : Cfg) (env : Env) (k : Nat) (st : St) (hd : Wire.Hdr) (fds : List Fd) (err : Nat) (x : Fd)
    (hf : (refuse cfg env k st hd fds err).res.isFault = false) :
    Bal x st (fds.count x) (refuse cfg env k st hd fds err).evs (refuse cfg env k st hd fds err).st := by
  have h := bal_doReply cfg env k st hd (.bytes []) [] err x
  unfold refuse at hf ⊢
  dsimp only at hf ⊢
  generalize doReply cfg env k st hd (.bytes []) [] err = o at h hf ⊢
  by_cases hr : o.res.isFault = true
  · rw [if_pos hr] at hf; exact absurd hr (by rw [hf]; simp)
  rw [if_neg hr]
  have h3 := h.trans (bal_free x o.st (fds.map some))
  rw [count_map_some, Nat.zero_add, ← List.append_assoc] at h3
  exact h3

theorem bal_mono {x : Fd} {a a' b b' : St} {n : Nat} {e : List Ev} (h : Bal x a n e b) (ha : owners a x = owners a' x)
    (hb : owners b x = owners b' x) : Bal x a' n e b' := by
  unfold Bal at *; rw [← ha, ← hb]; exact h

theorem bal_dispatch {cfg : Cfg} {env : Env} (ho : env.os.Ok) {st : St} {m : Msg} (hp : st.pending = .none)
    (hc : CleanMap env st m) (x : Fd) (hf : (dispatch cfg env st m).res.isFault = false) :
    Bal x st (m.fds.count x) (dispatch cfg env st m).evs (dispatch cfg env st m).st := by
  unfold dispatch at hf ⊢
  by_cases h1 : shouldExec st.mig m.hdr.cmd = false
  · rw [if_pos h1] at hf ⊢; exact bal_refuse _ _ _ _ _ _ _ _ ((quiet_fault _).symm.trans hf)
  rw [if_neg h1] at hf ⊢
  by_cases h2 : needsQuiesce cfg st m = true
  · rw [if_pos h2] at hf ⊢
    dsimp only at hf ⊢
    have hb : ∀ o, Bal x st 0 (bracket .quiesce (.quiesce o) st.quiesced) st := fun o =>
      Bal.idle (gotOf_inner inner_bracket x) (closesOf_bracket ..) rfl
    cases hk : env.quiesce 0 with
    | some e =>
      rw [hk] at hf
      dsimp only at hf ⊢
      by_cases he : e = EBUSY
      · rw [if_pos he]
        have h3 := hb (some e)
        unfold Bal at h3 ⊢
        have : owners { st with pending := .msg m } x = owners st x + m.fds.count x := by
          unfold owners inRegions inVectors inPending; rw [hp]; rfl
        dsimp only
        omega
      · rw [if_neg he] at hf ⊢
        have h3 := (hb (some e)).trans (bal_refuse _ _ _ _ _ _ _ x ((quiet_fault _).symm.trans hf))
        rw [Nat.zero_add] at h3
        exact h3
    | none =>
      rw [hk] at hf
      dsimp only at hf ⊢
      have h3 := (hb none).trans (bal_mono (a' := st)
        (bal_handleRequest (st := { st with quiesced := true }) ho 1 hc x hf) rfl rfl)
      rw [Nat.zero_add] at h3
      exact bal_mono h3 rfl rfl
  · rw [if_neg h2] at hf ⊢
    exact bal_mono (bal_handleRequest ho 0 hc x hf) rfl rfl

/-- The DMA map requests of this call, if any, are free of the defects of C08. -/
def Op.Clean (st : St) : Op → Prop
  | .run env (.req h body fds) => CleanMap env st ⟨h, body, fds⟩
  | .quiesced env _ => ∀ m, st.pending = .msg m → CleanMap env st m
  | _ => True

theorem bal_got {x : Fd} {st st' : St} {fds : List Fd} {evs : List Ev} (hd : Wire.Hdr)
    (h : Bal x st (fds.count x) evs st') : Bal x st 0 (.got hd fds :: evs) st' := by
  unfold Bal at *
  rw [gotOf_cons, closesOf_cons_ne (by simp)]
  have : gotOf [Ev.got hd fds] x = fds.count x := by simp [gotOf]
  omega

theorem bal_quiesced {x : Fd} {st : St} (e : Nat) {n : Nat} {evs : List Ev} {st' : St}
    (hb : Bal x { st with quiesced := true } n evs st') (hn' : inPending st' x = n) :
    Bal x st 0 (.devQuiesced e :: evs) { st' with pending := .none, quiesced := false } := by
  have hg : gotOf [Ev.devQuiesced e] x = 0 := rfl
  unfold Bal at hb ⊢
  rw [gotOf_cons, hg, closesOf_cons_ne (by simp)]
  have e1 : owners { st with quiesced := true } x = owners st x := rfl
  have e2 : owners { st' with pending := .none, quiesced := false } x + n = owners st' x := by
    unfold owners; rw [hn']; rfl
  omega

theorem bal_call {cfg : Cfg} {st : St} {op : Op} (ho : op.OSOk) (hc : op.Clean st) (x : Fd)
    (hf : (call cfg st op).res.isFault = false) : Bal x st 0 (call cfg st op).evs (call cfg st op).st := by
  cases op with
  | run env i =>
    have ho' := ho env rfl
    unfold call poll at hf ⊢
    dsimp only at hf ⊢
    by_cases h1 : st.pending ≠ .none
    · rw [if_pos h1]; exact Bal.refl ..
    by_cases h2 : st.conn = false
    · rw [if_neg h1, if_pos h2]; exact Bal.refl ..
    rw [if_neg h1, if_neg h2] at hf ⊢
    have hl : ∀ leak, gotOf [Ev.lost leak] x = 0 ∧ closesOf [Ev.lost leak] x = 0 := fun leak =>
      ⟨rfl, by rw [closesOf_cons_ne (by simp)]; rfl⟩
    cases i with
    | again => exact Bal.refl ..
    | lost e leak => exact (Bal.idle (hl leak).1 (hl leak).2 rfl : Bal x st 0 [Ev.lost leak] st).trans (bal_resetCtx cfg env 0 st x)
    | failed e leak => exact Bal.idle (hl leak).1 (hl leak).2 rfl
    | bad h fds e => exact bal_got h (bal_refuse _ _ _ _ _ _ _ _ ((quiet_fault _).symm.trans hf))
    | req h body fds => exact bal_got (fds := fds) h (bal_dispatch (m := ⟨h, body, fds⟩) ho' (Decidable.not_not.mp h1) hc x hf)
  | quiesced env e =>
    have ho' := ho env rfl
    unfold call deviceQuiesced at hf ⊢
    dsimp only at hf ⊢
    by_cases h1 : cfg.hasQuiesce = false ∨ st.pending = .none
    · rw [if_pos h1]; exact Bal.refl ..
    rw [if_neg h1] at hf ⊢
    dsimp only at hf ⊢
    obtain ⟨mig, dma, irqs, pci, conn, pending, quiesced, maxFds, maxXfer⟩ := st
    dsimp only at hf h1 ⊢
    cases pending with
    | none => exact absurd (Or.inr rfl) h1
    | ctxReset =>
      dsimp only at hf ⊢
      by_cases he : e = 0
      · rw [if_pos he]
        refine bal_quiesced e (n := 0) (bal_resetQuiesced ..) ?_
        unfold inPending
        rw [(resetQuiesced_frame cfg env _).1]
      · rw [if_neg he]
        exact bal_quiesced e (n := 0) (Bal.refl ..) rfl
    | msg m =>
      dsimp only at hf ⊢
      by_cases he : e = 0
      · rw [if_pos he] at hf ⊢
        have hb := bal_handleRequest ho' 0 (st := ⟨mig, dma, irqs, pci, conn, .msg m, true, maxFds, maxXfer⟩) (hc m rfl) x hf
        have hp := handleRequest_pending (cfg := cfg) (env := env) (k := 0) (m := m)
          (st := ⟨mig, dma, irqs, pci, conn, .msg m, true, maxFds, maxXfer⟩) (by simp)
        generalize handleRequest cfg env 0 ⟨mig, dma, irqs, pci, conn, .msg m, true, maxFds, maxXfer⟩ m = o at hb hp ⊢
        refine bal_quiesced e (n := m.fds.count x) hb ?_
        unfold inPending
        rw [hp]
      · rw [if_neg he]
        refine bal_quiesced e (n := m.fds.count x) ?_ rfl
        rw [← count_map_some]
        exact bal_free x _ (m.fds.map some)
  | transfer env lost =>
    unfold call transfer at hf ⊢
    dsimp only at hf ⊢
    by_cases h1 : st.pending ≠ .none
    · rw [if_pos h1]; exact Bal.refl ..
    rw [if_neg h1]
    by_cases h2 : lost = true ∧ st.conn = true
    · rw [if_pos h2]; exact bal_resetCtx cfg env 0 st x
    · rw [if_neg h2]; exact Bal.refl ..
  | attach n =>
    unfold call attach
    dsimp only
    by_cases h1 : st.conn = true
    · rw [if_pos h1]; exact Bal.refl ..
    rw [if_neg h1]
    cases n with
    | error e => exact Bal.refl ..
    | ok c => exact Bal.idle rfl rfl rfl
  | config f => exact Bal.idle rfl rfl rfl
  | mark sgl =>
    unfold call
    dsimp only
    cases hd : st.dma with
    | none => exact Bal.refl ..
    | some c =>
      dsimp only
      have h := Dma.conserve_step cfg.dma c (.mark sgl) x trivial trivial trivial
      cases hm : Dma.sglMark c sgl with
      | err e => exact Bal.refl ..
      | fault f => exact Bal.refl ..
      | ok c' =>
        simp only [Dma.step, hm] at h
        refine Bal.idle rfl rfl ?_
        unfold owners inVectors inPending
        have e1 : inRegions st x = Dma.holders c x := by unfold inRegions; rw [hd]; rfl
        have e2 : inRegions { st with dma := some c' } x = Dma.holders c' x := rfl
        rw [e1, e2]
        have e3 : (Dma.Reply.mark (Res.ok ())).left = [] := rfl
        simp [Dma.Op.fds, Dma.closes, e3] at h
        dsimp only
        omega
  | trigger wr sub =>
    refine Bal.idle (gotOf_inner (inner_flatMap inner_ofIrq _) x) ?_ rfl
    simp only [call]
    rw [closesOf_irq]
    unfold Irq.trigger
    cases st.irqs.efds[sub]? with
    | none => rfl
    | some o =>
      cases o with
      | none => rfl
      | some fd => cases wr <;> rfl

/-- All calls of the history are. -/
def CleanRun (cfg : Cfg) : St → List Op → Prop
  | _, [] => True
  | st, op :: ops => op.Clean st ∧ CleanRun cfg (call cfg st op).st ops

theorem bal_run {cfg : Cfg} (ops : List Op) {st : St} (ho : ∀ op ∈ ops, Op.OSOk op) (hc : CleanRun cfg st ops)
    (hf : Completes cfg st ops) (x : Fd) : Bal x st 0 (run cfg st ops).2 (run cfg st ops).1 := by
  induction ops generalizing st with
  | nil => exact Bal.refl ..
  | cons op ops ih =>
    have h1 := bal_call (cfg := cfg) (st := st) (ho op (.head _)) hc.1 x hf.1
    have h2 := ih (fun o h => ho o (.tail _ h)) hc.2 hf.2
    have hr : ¬ (call cfg st op).res.isFault = true := by rw [hf.1]; simp
    simp only [run, if_neg hr]
    exact h1.trans ((Bal.idle rfl rfl rfl : Bal x _ 0 [Ev.ret] _).trans h2)

/-- The descriptors that arrived with requests. -/
def gots (evs : List Ev) : List Fd := evs.flatMap fun e => match e with | .got _ fds => fds | _ => []

theorem owners_init (cfg : Cfg) (mig : Bool) (dma : Option (Nat × Nat)) (pci : Pci.Pci) (x : Fd) :
    owners (init cfg mig dma pci) x = 0 := by
  unfold owners inRegions inVectors inPending init
  have h : ∀ n, (List.replicate n (none : Option Fd)).count (some x) = 0 := fun n => by simp [List.count_replicate]
  cases dma <;> simp [Irq.realize, Dma.create, h]

/-- C59: over every history, as many descriptors are held by DMA regions, interrupt vectors and the request waiting for
its quiesce, or were closed, as arrived with requests. -/
theorem C59_balance (cfg : Cfg) (mig : Bool) (dma : Option (Nat × Nat)) (pci : Pci.Pci) (ops : List Op)
    (ho : ∀ op ∈ ops, Op.OSOk op) (hc : CleanRun cfg (init cfg mig dma pci) ops)
    (hf : Completes cfg (init cfg mig dma pci) ops) (x : Fd) :
    let r := run cfg (init cfg mig dma pci) ops
    owners r.1 x + closesOf r.2 x = (gots r.2).count x := by
  have h := bal_run ops ho hc hf x
  unfold Bal at h
  rw [owners_init] at h
  exact h.symm.trans (by simp only [Nat.zero_add]; rfl)

/-- C59: if every descriptor that arrives is a new one, each is either held exactly once and never closed, or held by
nothing and closed exactly once; other descriptors are not touched.  Unless a request waits for its quiesce, the holder
is a DMA region or an interrupt vector. -/
theorem C59_exactly_once (cfg : Cfg) (mig : Bool) (dma : Option (Nat × Nat)) (pci : Pci.Pci) (ops : List Op)
    (ho : ∀ op ∈ ops, Op.OSOk op) (hc : CleanRun cfg (init cfg mig dma pci) ops)
    (hf : Completes cfg (init cfg mig dma pci) ops) (x : Fd) :
    let r := run cfg (init cfg mig dma pci) ops
    (gots r.2).Nodup →
      (x ∈ gots r.2 → (owners r.1 x = 1 ∧ closesOf r.2 x = 0) ∨ (owners r.1 x = 0 ∧ closesOf r.2 x = 1)) ∧
      (x ∉ gots r.2 → owners r.1 x = 0 ∧ closesOf r.2 x = 0) ∧
      ((∀ m, r.1.pending ≠ .msg m) → owners r.1 x = inRegions r.1 x + inVectors r.1 x) := by
  intro r hnd
  have h := C59_balance cfg mig dma pci ops ho hc hf x
  change owners r.1 x + closesOf r.2 x = (gots r.2).count x at h
  refine ⟨fun hx => ?_, fun hx => ?_, fun hp => ?_⟩
  · rw [List.count_eq_one_of_mem hnd hx] at h
    omega
  · rw [List.count_eq_zero_of_not_mem hx] at h
    omega
  · unfold owners inPending
    cases h : r.1.pending with
    | msg m => exact absurd h (hp m)
    | none => rfl
    | ctxReset => rfl

theorem gotOf_resetQuiesced (cfg : Cfg) (env : Env) (st : St) (x : Fd) : gotOf (resetQuiesced cfg env st).evs x = 0 := by
  unfold resetQuiesced
  cases dropDma cfg st.dma with
  | err e => rfl
  | fault f => rfl
  | ok y =>
    obtain ⟨d', ev1⟩ := y
    dsimp only
    cases Irq.reset cfg.irq (deviceReset cfg env { st with dma := d' } .lostConn).1.irqs with
    | err e => rw [gotOf_append, gotOf_inner (inner_flatMap inner_ofDma _), gotOf_inner (inner_deviceReset _ _ _ _)]
    | fault f => rw [gotOf_append, gotOf_inner (inner_flatMap inner_ofDma _), gotOf_inner (inner_deviceReset _ _ _ _)]
    | ok z =>
      dsimp only
      rw [gotOf_append, gotOf_append, gotOf_append, gotOf_inner (inner_flatMap inner_ofDma _),
        gotOf_inner (inner_deviceReset _ _ _ _), gotOf_inner (inner_flatMap inner_ofIrq _)]
      rfl

theorem gotOf_resetCtx (cfg : Cfg) (env : Env) (k : Nat) (st : St) (x : Fd) : gotOf (resetCtx cfg env k st).evs x = 0 := by
  unfold resetCtx
  by_cases hq : cfg.hasQuiesce = true ∧ st.pending = .none
  · rw [if_pos hq]
    dsimp only
    have hb : ∀ o, gotOf (bracket .quiesce (.quiesce o) st.quiesced) x = 0 := fun o => gotOf_inner inner_bracket x
    cases env.quiesce k with
    | none => dsimp only; rw [gotOf_append, hb, gotOf_resetQuiesced]
    | some e =>
      dsimp only
      by_cases he : e = EBUSY
      · rw [if_pos he]; exact hb _
      · rw [if_neg he]; exact hb _
  · rw [if_neg hq]; exact gotOf_resetQuiesced ..

/-- Descriptors of a message that the transport gives up on (a short header, or more than fit) are neither held nor
closed. -/
theorem C59_lost {cfg : Cfg} {st : St} {env : Env} (ho : env.os.Ok) {e : Nat} {leak : List Fd} {i : Wire.In}
    (hi : i = .lost e leak ∨ i = .failed e leak) (hf : (call cfg st (.run env i)).res.isFault = false) (x : Fd)
    (hx : owners st x = 0) :
    owners (call cfg st (.run env i)).st x = 0 ∧ closesOf (call cfg st (.run env i)).evs x = 0 := by
  have hc : Op.Clean st (.run env i) := by rcases hi with rfl | rfl <;> exact trivial
  have h := bal_call (cfg := cfg) (op := .run env i) (fun _ h => by cases h; exact ho) hc x hf
  have hg : gotOf (call cfg st (.run env i)).evs x = 0 := by
    unfold call poll
    dsimp only
    by_cases h1 : st.pending ≠ .none
    · rw [if_pos h1]; rfl
    by_cases h2 : st.conn = false
    · rw [if_neg h1, if_pos h2]; rfl
    rw [if_neg h1, if_neg h2]
    rcases hi with rfl | rfl
    · dsimp only
      rw [gotOf_cons]
      have h3 : gotOf [Ev.lost leak] x = 0 := rfl
      rw [h3, gotOf_resetCtx]
    · rfl
  unfold Bal at h
  omega

section
open Demo

/-- A history: the session of C57, the unmapping of its region refused, a mapping that does not fit, the unmapping
deferred by the device. -/
def fdTalk : List Op :=
  session ++ [.run env (req 5 2 0 (enc 4 32 ++ enc 4 3 ++ enc 8 0 ++ enc 8 0x100000 ++ enc 8 0x1000) [8]),
    .run busy (req 6 3 0 (unmapBody 0x100000) [9])]

theorem fdTalk_ok : ∀ op ∈ fdTalk, op.OSOk := by
  intro op hop
  rcases List.mem_append.mp hop with h | h
  · exact session_ok op h
  · simp only [List.mem_cons, List.not_mem_nil, or_false] at h
    rcases h with rfl | rfl <;> intro e he <;> cases he <;> exact env_ok rfl

theorem noMap {env : Env} {st : St} {m : Msg} (h : m.hdr.cmd ≠ 2) : CleanMap env st m := fun h' => absurd h' h

theorem fdTalk_clean : CleanRun cfg (init cfg true (some (8, 2 ^ 40)) pci) fdTalk := by
  refine ⟨trivial, fun _ c hc fd hfd => ⟨fun b hb => ?_, ?_⟩, noMap (by decide), noMap (by decide),
    fun _ c hc fd hfd => ⟨fun b hb => ?_, ?_⟩, noMap (by decide), trivial⟩
  · cases hb; exact ⟨0x7f0000000000, rfl⟩
  · have h : (call cfg (init cfg true (some (8, 2 ^ 40)) pci)
        (.attach (.ok { maxFds := 8, maxXfer := 1048576, pgsize := 4096 }))).st.dma.map (·.regions) = some [] := by
      decide +kernel
    rw [hc] at h
    rintro ⟨r, hr, _⟩
    rw [show c.regions = [] from Option.some.inj h] at hr
    cases hr
  · cases hb; exact ⟨0x7f0000000000, rfl⟩
  · have h : (run cfg (init cfg true (some (8, 2 ^ 40)) pci) session).1.dma.map
        (fun c => c.regions.map (·.info.len)) = some [0x200000] := by decide +kernel
    have h' : (run cfg (init cfg true (some (8, 2 ^ 40)) pci) session).1.dma = some c := hc
    rw [h'] at h
    rintro ⟨r, hr, _, h2, _⟩
    have h3 := List.mem_map_of_mem (f := (·.info.len)) hr
    rw [show c.regions.map (·.info.len) = [0x200000] from Option.some.inj h] at h3
    have h4 := List.mem_singleton.mp h3
    rw [h4] at h2
    exact absurd h2 (by decide +kernel)

theorem fdTalk_completes : Completes cfg (init cfg true (some (8, 2 ^ 40)) pci) fdTalk := by
  refine ⟨?_, ?_, ?_, ?_, ?_, ?_, trivial⟩ <;> decide +kernel

/-- C59: descriptor 5 is held by a region, 6 and 7 by vectors, 8 is closed, 9 waits with its request. -/
example : let r := run cfg (init cfg true (some (8, 2 ^ 40)) pci) fdTalk
    gots r.2 = [5, 6, 7, 8, 9] ∧ inRegions r.1 5 = 1 ∧ inVectors r.1 6 = 1 ∧ inVectors r.1 7 = 1 ∧ closesOf r.2 8 = 1 ∧
      inPending r.1 9 = 1 := by decide +kernel

example (x : Fd) := C59_exactly_once cfg true (some (8, 2 ^ 40)) pci fdTalk fdTalk_ok fdTalk_clean fdTalk_completes x
  (by decide +kernel)

/-- Without the proviso: if `mmap` fails, the descriptor is closed twice (`lib/dma.c:384-392`,
`lib/libvfio-user.c:729-733`) … -/
theorem C59_double_close :
    let bad : Env := { env with os := { os with mmap := fun _ _ => .error 12 } }
    closesOf (call cfg Demo.st (.run bad (req 1 2 0 (mapBody 0x100000) [5]))).evs 5 = 2 := by decide +kernel

/-- … and if a region is mapped again, the second descriptor is neither kept nor closed (`lib/dma.c:300-325`). -/
theorem C59_leak :
    let r := run cfg Demo.st [.run env (req 1 2 0 (mapBody 0x100000) [5]),
      .run { env with os := { os with ino := fun _ => some 1 } } (req 2 2 0 (mapBody 0x100000) [8])]
    gots r.2 = [5, 8] ∧ owners r.1 8 = 0 ∧ closesOf r.2 8 = 0 := by decide +kernel

/-- C59: a client that sends 4 bytes with a descriptor and closes its end makes the server lose that descriptor. -/
example : ∃ leak, (Wire.next { cells := [(1, [9]), (0, []), (2, []), (0, [])], closed := true, lim := [] }).1 =
      .lost ECONNRESET leak ∧ 9 ∈ leak ∧
    owners (call cfg inSession (.run env (.lost ECONNRESET leak))).st 9 = 0 ∧
    closesOf (call cfg inSession (.run env (.lost ECONNRESET leak))).evs 9 = 0 :=
  ⟨[9], by decide +kernel, by decide, C59_lost (env_ok rfl) (.inl rfl) (by decide +kernel) 9 (by decide +kernel)⟩

end

end Verif.Server
