import Verif.Server.Stopped

/-!
# C121: the device's account of its migration state

C75 is the client's side: a client that keeps an account from its requests and the replies knows the state.  This is the side
of the device: it hears of states and of stateTalk, and answers. -/

namespace Verif.Server
open Verif
open Verif.Dma (Fd)
open Verif.Mig (MSt Arc Path)

/-! ## The device -/

/-- What the device answers during a call: to the `k`-th state it is asked for, and to a reset. -/
structure Consent where
  state : Nat → Option Nat
  reset : Reason → Option Nat

/-- `Follows w a k cs b`: a device in the state `a`, which was asked for `k` states before in this call, is asked along documented
arcs only when it hears `cs`, and is in the state `b` afterwards, if it moves when and only when it agrees, and runs again after
a reset it agreed to.  A function level reset is not about the migration. -/
inductive Follows (w : Consent) : MSt → Nat → List Call → MSt → Prop
  | nil {a k} : Follows w a k [] a
  | move {a b c k cs} : Arc a b → w.state k = none → Follows w b (k + 1) cs c → Follows w a k (.migState (Mig.told b) :: cs) c
  | stay {a b c k cs e} : Arc a b → w.state k = some e → Follows w a (k + 1) cs c → Follows w a k (.migState (Mig.told b) :: cs) c
  | back {a c k r cs} : r ≠ .flr → w.reset r = none → Follows w .running k cs c → Follows w a k (.reset r :: cs) c
  | fail {a c k r cs e} : r ≠ .flr → w.reset r = some e → Follows w a k cs c → Follows w a k (.reset r :: cs) c
  | rest {a c k x cs} : (∀ v, x ≠ .migState v) → (∀ r, x = .reset r → r = .flr) → Follows w a k cs c → Follows w a k (x :: cs) c

/-- The answers of an operation. -/
def Op.answers (op : Op) : Consent :=
  match op.env? with
  | some env => ⟨env.migCb, env.resetCb⟩
  | none => ⟨fun _ => none, fun _ => none⟩

/-- The same over a history. -/
inductive Lives (cfg : Cfg) : MSt → St → List Op → MSt → Prop
  | nil {a st} : Lives cfg a st [] a
  | next {a b c st op ops} : Follows op.answers a 0 (calls (call cfg st op).evs) b → (call cfg st op).res.isFault = false →
      Lives cfg b (call cfg st op).st ops c → Lives cfg a st (op :: ops) c
  | stop {a b st op ops} : Follows op.answers a 0 (calls (call cfg st op).evs) b → (call cfg st op).res.isFault = true →
      Lives cfg a st (op :: ops) b

theorem mig_told_inj {a b : MSt} (h : Mig.told a = Mig.told b) : a = b := by cases a <;> cases b <;> first | rfl | cases h

/-- What the device hears and answers determines where it is. -/
theorem Follows.unique {w : Consent} {cs : List Call} : ∀ {a k b c}, Follows w a k cs b → Follows w a k cs c → b = c := by
  induction cs with
  | nil => intro a k b c h1 h2; cases h1; cases h2; rfl
  | cons x cs ih =>
    intro a k b c h1 h2
    cases x with
    | migState v =>
      generalize hx : Call.migState v = x at h1 h2
      cases h1 with
      | move _ e1 h1 =>
        cases hx
        generalize hy : Call.migState _ = y at h2
        cases h2 with
        | move _ _ h2 => injection hy with hy; cases mig_told_inj hy; exact ih h1 h2
        | stay _ e2 h2 => rw [e1] at e2; cases e2
        | back => cases hy
        | fail => cases hy
        | rest n => exact absurd hy.symm (n _)
      | stay _ e1 h1 =>
        cases hx
        generalize hy : Call.migState _ = y at h2
        cases h2 with
        | move _ e2 h2 => rw [e1] at e2; cases e2
        | stay _ _ h2 => exact ih h1 h2
        | back => cases hy
        | fail => cases hy
        | rest n => exact absurd hy.symm (n _)
      | back => cases hx
      | fail => cases hx
      | rest n => exact absurd hx.symm (n _)
    | reset r =>
      cases h1 with
      | back n1 e1 h1 =>
        cases h2 with
        | back _ _ h2 => exact ih h1 h2
        | fail _ e2 _ => rw [e1] at e2; cases e2
        | rest _ n _ => exact absurd (n r rfl) n1
      | fail n1 e1 h1 =>
        cases h2 with
        | back _ e2 _ => rw [e1] at e2; cases e2
        | fail _ _ h2 => exact ih h1 h2
        | rest _ n _ => exact absurd (n r rfl) n1
      | rest _ n h1 =>
        cases h2 with
        | back n2 _ _ => exact absurd (n r rfl) n2
        | fail n2 _ _ => exact absurd (n r rfl) n2
        | rest _ _ h2 => exact ih h1 h2
    | quiesce _ | dmaRegister _ | dmaUnregister _ | migData _ | region _ _ _ _ | irqState _ _ _ _ =>
      cases h1 with
      | rest _ _ h1 => cases h2 with | rest _ _ h2 => exact ih h1 h2

theorem Lives.unique {cfg : Cfg} {ops : List Op} : ∀ {a st b c}, Lives cfg a st ops b → Lives cfg a st ops c → b = c := by
  induction ops with
  | nil => intro a st b c h1 h2; cases h1; cases h2; rfl
  | cons op ops ih =>
    intro a st b c h1 h2
    cases h1 with
    | next h1 f1 t1 =>
      cases h2 with
      | next h2 _ t2 => cases h1.unique h2; exact ih t1 t2
      | stop _ f2 => rw [f1] at f2; cases f2
    | stop h1 f1 =>
      cases h2 with
      | next _ f2 _ => rw [f1] at f2; cases f2
      | stop h2 _ => exact h1.unique h2

/-! ## Calls that are not about the state -/

/-- Neither a state nor a reset of the device. -/
def Call.Aside (x : Call) : Prop := (∀ v, x ≠ .migState v) ∧ ∀ r, x = .reset r → r = .flr

section
variable {w : Consent}

theorem Follows.aside {cs : List Call} (h : ∀ x ∈ cs, x.Aside) {a : MSt} {k : Nat} : Follows w a k cs a := by
  induction cs with
  | nil => exact .nil
  | cons x cs ih => exact .rest (h x (by simp)).1 (h x (by simp)).2 (ih fun y hy => h y (by simp [hy]))

theorem Follows.append {cs cs' : List Call} {b c : MSt} (h2 : ∀ k, Follows w b k cs' c) :
    ∀ {a k}, Follows w a k cs b → Follows w a k (cs ++ cs') c := by
  intro a k h1
  induction h1 with
  | nil => exact h2 _
  | move ha he _ ih => exact .move ha he (ih h2)
  | stay ha he _ ih => exact .stay ha he (ih h2)
  | back hr he _ ih => exact .back hr he (ih h2)
  | fail hr he _ ih => exact .fail hr he (ih h2)
  | rest h1 h2' _ ih => exact .rest h1 h2' (ih h2)

theorem Follows.left {cs cs' : List Call} (h1 : ∀ x ∈ cs, x.Aside) {a c : MSt} {k : Nat} (h2 : Follows w a k cs' c) :
    Follows w a k (cs ++ cs') c := by
  induction cs with
  | nil => exact h2
  | cons x cs ih => exact .rest (h1 x (by simp)).1 (h1 x (by simp)).2 (ih fun y hy => h1 y (by simp [hy]))

theorem Follows.right {cs cs' : List Call} (h2 : ∀ x ∈ cs', x.Aside) {a c : MSt} {k : Nat} (h1 : Follows w a k cs c) :
    Follows w a k (cs ++ cs') c := h1.append fun _ => .aside h2

/-- A path the device agrees to. -/
theorem Follows.path {p : List MSt} {a b : MSt} (hp : Path a p b) {cs : List Call} {c : MSt} : ∀ {k : Nat},
    (∀ i < p.length, w.state (k + i) = none) → Follows w b (k + p.length) cs c →
    Follows w a k ((p.map Mig.told).map Call.migState ++ cs) c := by
  induction hp with
  | nil a => intro k _ h; exact h
  | @cons a b c p ha _ ih =>
    intro k hn h
    refine .move ha (hn 0 (by simp)) (ih (fun i hi => ?_) ?_)
    · have := hn (i + 1) (by simpa using hi)
      rwa [show k + (i + 1) = k + 1 + i by omega] at this
    · rwa [show k + 1 + p.length = k + (b :: p).length by simp; omega]

end

/-- A request for a state. -/
theorem follows_walk (w : Consent) (a : MSt) (t : Nat) : ∃ b : MSt, (Mig.setState w.state a.num t).1 = b.num ∧
    Follows w a 0 ((Mig.setState w.state a.num t).2.2.map Call.migState) b := by
  by_cases h8 : t = 8
  · subst h8
    rw [Mig.setState_eight]
    exact ⟨a, rfl, .nil⟩
  rcases Mig.C22_last_acknowledged w.state a t h8 with ⟨b, p, _, hp, hn, hx⟩ | ⟨_, hx⟩ | ⟨q, c, x, e, hq, hcx, hn, he, hx⟩
  · rw [hx]
    refine ⟨b, rfl, ?_⟩
    have := Follows.path (w := w) (k := 0) hp (fun i hi => by rw [Nat.zero_add]; exact hn i hi) (.nil (a := b))
    rwa [List.append_nil] at this
  · rw [hx]; exact ⟨a, rfl, .nil⟩
  · rw [hx]
    refine ⟨c, rfl, ?_⟩
    rw [List.map_append]
    exact Follows.path (k := 0) hq (fun i hi => by rw [Nat.zero_add]; exact hn i hi)
      (.stay hcx (by rw [Nat.zero_add]; exact he) .nil)

/-! ## The library -/

/-- The account agrees with the library after some events. -/
def Keeps2 (env : Env) (a : MSt) (o : Option Nat) (evs : List Ev) : Prop :=
  ∃ b : MSt, o = some b.num ∧ ∀ k, Follows ⟨env.migCb, env.resetCb⟩ a k (calls evs) b

section
variable {cfg : Cfg} {env : Env} {a : MSt}

theorem aside_ofDma (q : Bool) (l : List Dma.Ev) : ∀ x ∈ calls (l.flatMap (ofDma q)), x.Aside := by
  intro x hx
  rcases calls_ofDma hx with ⟨i, rfl, _⟩ | ⟨i, rfl, _⟩
  · exact ⟨fun _ h => (by cases h), fun _ h => (by cases h)⟩
  · exact ⟨fun _ h => (by cases h), fun _ h => (by cases h)⟩

theorem aside_ofIrq (q : Bool) (l : List Irq.Ev) : ∀ x ∈ calls (l.flatMap (ofIrq q)), x.Aside := by
  intro x hx
  obtain ⟨e, _, hx⟩ := calls_flatMap hx
  cases e with
  | state i s c m =>
    cases List.mem_singleton.mp (show x ∈ [Call.irqState i s c m] from hx)
    exact ⟨fun _ h => (by cases h), fun _ h => (by cases h)⟩
  | _ => cases hx

theorem aside_none {l : List Ev} (h : calls l = []) : ∀ x ∈ calls l, x.Aside := by rw [h]; intro x hx; cases hx

theorem aside_ask (r : Option Nat) (q : Bool) : ∀ x ∈ calls (bracket .quiesce (.quiesce r) q), x.Aside := by
  intro x hx
  cases List.mem_singleton.mp (show x ∈ [Call.quiesce r] from hx)
  exact ⟨fun _ h => (by cases h), fun _ h => (by cases h)⟩

theorem Keeps2.left {o : Option Nat} {l l' : List Ev} (h1 : ∀ x ∈ calls l, x.Aside) (h2 : Keeps2 env a o l') :
    Keeps2 env a o (l ++ l') := by
  obtain ⟨b, hb, h2⟩ := h2
  refine ⟨b, hb, fun k => ?_⟩
  rw [calls_append]
  exact (h2 k).left h1

theorem Keeps2.right {o : Option Nat} {l l' : List Ev} (h1 : Keeps2 env a o l) (h2 : ∀ x ∈ calls l', x.Aside) :
    Keeps2 env a o (l ++ l') := by
  obtain ⟨b, hb, h1⟩ := h1
  refine ⟨b, hb, fun k => ?_⟩
  rw [calls_append]
  exact (h1 k).right h2

theorem Keeps2.same {o : Option Nat} {l : List Ev} (h : o = some a.num) (h1 : ∀ x ∈ calls l, x.Aside) : Keeps2 env a o l :=
  ⟨a, h, fun _ => .aside h1⟩

theorem keeps2_reset (hr : cfg.hasReset = true) {st : St} (hm : st.mig = some a.num) {r : Reason} (hf : r ≠ .flr) :
    Keeps2 env a (deviceReset cfg env st r).1.mig (deviceReset cfg env st r).2.2 := by
  unfold deviceReset
  rw [if_pos hr]
  dsimp only
  cases he : env.resetCb r with
  | some e => exact ⟨a, hm, fun k => .fail hf he .nil⟩
  | none => exact ⟨.running, by simp [hm]; rfl, fun k => .back hf he .nil⟩

theorem keeps2_resetQuiesced (hr : cfg.hasReset = true) {st : St} (hm : st.mig = some a.num) :
    Keeps2 env a (resetQuiesced cfg env st).st.mig (resetQuiesced cfg env st).evs := by
  unfold resetQuiesced
  cases dropDma cfg st.dma with
  | err e => exact .same hm (by intro x hx; cases hx)
  | fault f => exact .same hm (by intro x hx; cases hx)
  | ok d =>
    dsimp only
    have h1 := (keeps2_reset (cfg := cfg) (env := env) hr (st := { st with dma := d.1 }) hm (r := .lostConn) (by simp)).left
      (aside_ofDma st.quiesced d.2)
    cases Irq.reset cfg.irq (deviceReset cfg env { st with dma := d.1 } .lostConn).1.irqs with
    | err e => exact h1
    | fault f => exact h1
    | ok i => exact (h1.right (aside_ofIrq _ _)).right (aside_none rfl)

theorem keeps2_resetCtx (hr : cfg.hasReset = true) (k : Nat) {st : St} (hm : st.mig = some a.num) :
    Keeps2 env a (resetCtx cfg env k st).st.mig (resetCtx cfg env k st).evs := by
  have h0 := keeps2_resetQuiesced (env := env) hr hm
  unfold resetCtx
  by_cases hq : cfg.hasQuiesce = true ∧ st.pending = .none
  · rw [if_pos hq]
    dsimp only
    have hb := aside_ask (env.quiesce k) st.quiesced
    revert hb
    generalize bracket .quiesce (.quiesce (env.quiesce k)) st.quiesced = br
    intro hb
    cases env.quiesce k with
    | none => exact h0.left hb
    | some e =>
      dsimp only
      by_cases he : e = EBUSY
      · rw [if_pos he]; exact .same hm hb
      · rw [if_neg he]; exact .same hm hb
  · rw [if_neg hq]; exact h0

theorem keeps2_doReply (hr : cfg.hasReset = true) (k : Nat) {st : St} (hm : st.mig = some a.num) (hd : Wire.Hdr) (b : Wire.Body)
    (fds : List (Option Fd)) (err : Nat) :
    Keeps2 env a (doReply cfg env k st hd b fds err).st.mig (doReply cfg env k st hd b fds err).evs := by
  unfold doReply
  by_cases hn : hd.noReply = true
  · rw [if_pos hn]; exact .same hm (aside_none rfl)
  rw [if_neg hn]
  dsimp only
  have hs : ∀ ws : List Wire.Sent, ∀ x ∈ calls (ws.map Ev.sent), x.Aside := fun ws => aside_none (calls_sent ws)
  cases (Wire.reply env.snd hd b fds (err % U32)).1 with
  | ok u => exact .same hm (hs _)
  | error e =>
    dsimp only
    by_cases he : e = ECONNRESET ∨ e = ENOMSG
    · rw [if_pos he]; exact (keeps2_resetCtx hr k hm).left (hs _)
    · rw [if_neg he]; exact .same hm (hs _)

theorem keeps2_refuse (hr : cfg.hasReset = true) (k : Nat) {st : St} (hm : st.mig = some a.num) (hd : Wire.Hdr) (fds : List Fd)
    (err : Nat) : Keeps2 env a (refuse cfg env k st hd fds err).st.mig (refuse cfg env k st hd fds err).evs := by
  have h := keeps2_doReply (env := env) hr k hm hd (.bytes []) [] err
  unfold refuse
  dsimp only
  by_cases hf : (doReply cfg env k st hd (.bytes []) [] err).res.isFault = true
  · rw [if_pos hf]; exact h
  · rw [if_neg hf]; exact (h.right (aside_none (calls_closes _))).right (aside_none rfl)

theorem feature_moves {fe : Mig.FEnv} {s : Mig.FSt} {n : Nat} (hm : s.mig = some n) (body : List Byte) :
    ((Mig.handleFeature fe s body).1.mig = s.mig ∧ (Mig.handleFeature fe s body).2.2 = []) ∨
    ∃ t, (Mig.handleFeature fe s body).1.mig = some (Mig.setState fe.cb n t).1 ∧
      (Mig.handleFeature fe s body).2.2 = (Mig.setState fe.cb n t).2.2 := by
  unfold Mig.handleFeature
  by_cases h1 : body.length < 8
  · rw [if_pos h1]; exact .inl ⟨rfl, rfl⟩
  rw [if_neg h1]
  dsimp only
  split
  · exact .inl ⟨rfl, rfl⟩
  rw [hm]
  dsimp only
  split
  · unfold Mig.featGet
    split
    · exact .inl ⟨hm, rfl⟩
    split
    · exact .inl ⟨hm, rfl⟩
    · exact .inl ⟨hm, rfl⟩
  split
  · unfold Mig.featSet
    split
    · exact .inl ⟨hm, rfl⟩
    split
    · exact .inl ⟨hm, rfl⟩
    by_cases hf : Mig.isMigFeature (leAt body 4 4 % 65536) = true
    · rw [if_pos hf]
      show (some (Mig.migSet fe n _ body).1 = some n ∧ (Mig.migSet fe n _ body).2.2 = []) ∨
        ∃ t, some (Mig.migSet fe n _ body).1 = _ ∧ (Mig.migSet fe n _ body).2.2 = _
      unfold Mig.migSet
      by_cases hs : leAt body 4 4 % 65536 ≠ Mig.FEAT_STATE
      · rw [if_pos hs]; exact .inl ⟨rfl, rfl⟩
      rw [if_neg hs]
      cases rd body 8 4 with
      | ok t => exact .inr ⟨t, rfl, rfl⟩
      | err e => exact .inl ⟨rfl, rfl⟩
      | fault f => exact .inl ⟨rfl, rfl⟩
    rw [if_neg hf]
    split
    · exact .inl ⟨hm, rfl⟩
    · exact .inl ⟨hm, rfl⟩
  · exact .inl ⟨hm, rfl⟩

variable {p : Pci.Pci} (hsz : ∀ r ∈ cfg.tbl, r.size < U32) (hl : LayoutOk cfg.tbl p)
include hsz hl

/-- A request: the states are asked for first, so that they are numbered from 0. -/
theorem follows_exec (hr : cfg.hasReset = true) {st : St} {m : Msg} (hp : layout st.pci = layout p) (hm : st.mig = some a.num) :
    ∃ b : MSt, (exec cfg env st m).st.mig = some b.num ∧
      Follows ⟨env.migCb, env.resetCb⟩ a 0 (calls (exec cfg env st m).evs) b := by
  by_cases h16 : m.hdr.cmd = 16
  · rw [exec_feature h16]
    unfold feature
    dsimp only [Done.pure]
    rw [calls_walk]
    rcases feature_moves (fe := env.feat) (s := { mig := st.mig, dma := st.dma }) hm m.body with ⟨h1, h2⟩ | ⟨t, h1, h2⟩
    · rw [h1, h2]; exact ⟨a, hm, .nil⟩
    · rw [h1, h2]
      obtain ⟨b, hb, h⟩ := follows_walk ⟨env.migCb, env.resetCb⟩ a t
      exact ⟨b, congrArg some hb, h⟩
  by_cases h13 : m.hdr.cmd = 13
  · have hx : (exec cfg env st m).st = (deviceReset cfg env st .device).1 ∧
        (exec cfg env st m).evs = (deviceReset cfg env st .device).2.2 := by
      unfold exec
      simp only [h13]
      exact ⟨rfl, rfl⟩
    rw [hx.1, hx.2]
    obtain ⟨b, hb, h⟩ := keeps2_reset (cfg := cfg) (env := env) hr hm (r := .device) (by simp)
    exact ⟨b, hb, h 0⟩
  · refine ⟨a, (exec_keeps (fun h => h16 h.1) h13).trans hm, .aside ?_⟩
    intro x hx
    have hpr := exec_prompts hsz hl hp x hx
    refine ⟨fun v e => ?_, fun r e => ?_⟩
    · subst e; exact h16 hpr.1
    · subst e
      cases r with
      | device => exact absurd hpr h13
      | flr => rfl
      | lostConn => exact hpr.elim

theorem follows_handleRequest (hr : cfg.hasReset = true) (k : Nat) {st : St} {m : Msg} (hp : layout st.pci = layout p)
    (hm : st.mig = some a.num) : ∃ b : MSt, (handleRequest cfg env k st m).st.mig = some b.num ∧
      Follows ⟨env.migCb, env.resetCb⟩ a 0 (calls (handleRequest cfg env k st m).evs) b := by
  obtain ⟨b, hb, hx⟩ := follows_exec (env := env) hsz hl hr (m := m) hp hm
  unfold handleRequest
  dsimp only
  generalize exec cfg env st m = d at hb hx
  have hx' : Follows ⟨env.migCb, env.resetCb⟩ a 0 (calls (.exec m.hdr :: d.evs)) b := by rwa [calls_cons (by simp)]
  by_cases hf : d.res.isFault = true
  · rw [if_pos hf]; exact ⟨b, hb, hx'⟩
  rw [if_neg hf]
  obtain ⟨c, hc, h1⟩ := keeps2_doReply (env := env) hr k hb m.hdr d.out d.outFds (replyErr d.res)
  have h2 := hx'.append h1
  rw [← calls_append] at h2
  unfold finish
  dsimp only
  by_cases hf : (doReply cfg env k d.st m.hdr d.out d.outFds (replyErr d.res)).res.isFault = true
  · rw [if_pos hf]; exact ⟨c, hc, h2⟩
  · rw [if_neg hf]
    refine ⟨c, hc, ?_⟩
    have h3 := (h2.right (aside_none (calls_closes d.left))).right (aside_none (l := [.freed]) rfl)
    rwa [← calls_append, ← calls_append] at h3

theorem follows_call (hr : cfg.hasReset = true) {st : St} (hp : layout st.pci = layout p) (hm : st.mig = some a.num) (op : Op) :
    ∃ b : MSt, (call cfg st op).st.mig = some b.num ∧ Follows op.answers a 0 (calls (call cfg st op).evs) b := by
  have hk : ∀ {env : Env} {o : Out}, Keeps2 env a o.st.mig o.evs →
      ∃ b : MSt, o.st.mig = some b.num ∧ Follows ⟨env.migCb, env.resetCb⟩ a 0 (calls o.evs) b := by
    rintro env o ⟨b, hb, h⟩; exact ⟨b, hb, h 0⟩
  have hcons : ∀ {env : Env} {o : Option Nat} {l : List Ev} {e : Ev}, (∀ c q, e ≠ .call c q) → Keeps2 env a o l →
      Keeps2 env a o (e :: l) := by
    rintro env o l e he ⟨b, hb, h⟩
    exact ⟨b, hb, fun k => by rw [calls_cons he]; exact h k⟩
  cases op with
  | run env i =>
    show ∃ b : MSt, (poll cfg env st i).st.mig = some b.num ∧ Follows ⟨env.migCb, env.resetCb⟩ a 0 (calls (poll cfg env st i).evs) b
    unfold poll
    by_cases h1 : st.pending ≠ .none
    · rw [if_pos h1]; exact ⟨a, hm, .nil⟩
    rw [if_neg h1]
    by_cases h2 : st.conn = false
    · rw [if_pos h2]; exact ⟨a, hm, .nil⟩
    rw [if_neg h2]
    cases i with
    | again => exact ⟨a, hm, .nil⟩
    | lost e leak =>
      obtain ⟨b, hb, h⟩ := hcons (e := .lost leak) (by simp) (keeps2_resetCtx (env := env) hr 0 hm)
      exact ⟨b, hb, h 0⟩
    | failed e leak => exact ⟨a, hm, .nil⟩
    | bad hd fds e =>
      obtain ⟨b, hb, h⟩ := hcons (e := .got hd fds) (by simp) (keeps2_refuse (env := env) hr 0 hm hd fds e)
      exact ⟨b, hb, h 0⟩
    | req hd body fds =>
      dsimp only
      suffices g : ∃ b : MSt, (dispatch cfg env st ⟨hd, body, fds⟩).st.mig = some b.num ∧
          Follows ⟨env.migCb, env.resetCb⟩ a 0 (calls (dispatch cfg env st ⟨hd, body, fds⟩).evs) b by
        obtain ⟨b, hb, h⟩ := g
        exact ⟨b, hb, by rw [calls_cons (by simp)]; exact h⟩
      unfold dispatch
      dsimp only
      by_cases h3 : shouldExec st.mig hd.cmd = false
      · rw [if_pos h3]; exact hk (keeps2_refuse hr 0 hm _ _ _)
      rw [if_neg h3]
      by_cases h4 : needsQuiesce cfg st ⟨hd, body, fds⟩ = true
      · rw [if_pos h4]
        have hb := aside_ask (env.quiesce 0) st.quiesced
        revert hb
        generalize bracket .quiesce (.quiesce (env.quiesce 0)) st.quiesced = br
        intro hb
        cases env.quiesce 0 with
        | none =>
          obtain ⟨b, h1, h2⟩ := follows_handleRequest (env := env) hsz hl hr 1 (st := { st with quiesced := true }) (m := ⟨hd, body, fds⟩) hp hm
          refine ⟨b, h1, ?_⟩
          dsimp only
          rw [calls_append]
          exact h2.left hb
        | some e =>
          dsimp only
          by_cases he : e = EBUSY
          · rw [if_pos he]; exact ⟨a, hm, .aside hb⟩
          · rw [if_neg he]
            obtain ⟨b, h1, h2⟩ := (keeps2_refuse (env := env) hr 1 hm hd fds e).left hb
            exact ⟨b, h1, h2 0⟩
      · rw [if_neg h4]
        obtain ⟨b, h1, h2⟩ := follows_handleRequest (env := env) hsz hl hr 0 (m := ⟨hd, body, fds⟩) hp hm
        exact ⟨b, h1, h2⟩
  | quiesced env e =>
    show ∃ b : MSt, (deviceQuiesced cfg env st e).st.mig = some b.num ∧
      Follows ⟨env.migCb, env.resetCb⟩ a 0 (calls (deviceQuiesced cfg env st e).evs) b
    unfold deviceQuiesced
    by_cases h1 : cfg.hasQuiesce = false ∨ st.pending = .none
    · rw [if_pos h1]; exact ⟨a, hm, .nil⟩
    rw [if_neg h1]
    dsimp only
    rw [calls_cons (by simp)]
    by_cases he : e = 0
    · rw [if_pos he]
      cases hpd : st.pending with
      | none => exact ⟨a, hm, .nil⟩
      | msg m =>
        have := follows_handleRequest (env := env) hsz hl hr 0 (st := { st with quiesced := true }) (m := m) hp hm
        simpa only [hpd] using this
      | ctxReset =>
        have := hk (keeps2_resetQuiesced (cfg := cfg) (env := env) hr (st := { st with quiesced := true }) hm)
        simpa only [hpd] using this
    · rw [if_neg he]
      cases st.pending with
      | none => exact ⟨a, hm, .nil⟩
      | msg m =>
        refine ⟨a, hm, .aside ?_⟩
        dsimp only
        rw [calls_append, calls_closes]
        intro x hx
        cases hx
      | ctxReset => exact ⟨a, hm, .nil⟩
  | transfer env lost =>
    show ∃ b : MSt, (transfer cfg env st lost).st.mig = some b.num ∧
      Follows ⟨env.migCb, env.resetCb⟩ a 0 (calls (transfer cfg env st lost).evs) b
    unfold transfer
    by_cases h1 : st.pending ≠ .none
    · rw [if_pos h1]; exact ⟨a, hm, .nil⟩
    rw [if_neg h1]
    by_cases h : lost = true ∧ st.conn = true
    · rw [if_pos h]
      obtain ⟨b, h1, h2⟩ := keeps2_resetCtx (cfg := cfg) (env := env) hr 0 hm
      exact ⟨b, h1, h2 0⟩
    · rw [if_neg h]; exact ⟨a, hm, .nil⟩
  | attach n =>
    show ∃ b : MSt, (attach st n).st.mig = some b.num ∧ Follows _ a 0 (calls (attach st n).evs) b
    unfold attach
    by_cases h : st.conn = true
    · rw [if_pos h]; exact ⟨a, hm, .nil⟩
    rw [if_neg h]
    cases n <;> exact ⟨a, hm, .nil⟩
  | config f => exact ⟨a, hm, .nil⟩
  | mark sgl =>
    simp only [call]
    cases st.dma with
    | none => exact ⟨a, hm, .nil⟩
    | some c => dsimp only; cases Dma.sglMark c sgl <;> exact ⟨a, hm, .nil⟩
  | trigger wr sub => exact ⟨a, hm, .aside (aside_ofIrq _ _)⟩

/-- C121: over every history the device is asked along documented arcs only, from where it is, and where it is is the state of
the library, which the client is told. -/
theorem C121_account (hr : cfg.hasReset = true) (dma : Option (Nat × Nat)) (ops : List Op) (ho : ∀ o ∈ ops, o.OSOk) :
    ∃ b : MSt, Lives cfg .running (init cfg true dma p) ops b ∧ (run cfg (init cfg true dma p) ops).1.mig = some b.num := by
  have hc := core_init cfg true dma p
  have hm : (init cfg true dma p).mig = some MSt.running.num := rfl
  revert hc hm
  generalize init cfg true dma p = st
  generalize MSt.running = a
  induction ops generalizing st a with
  | nil => exact fun _ hm => ⟨a, .nil, hm⟩
  | cons op ops ih =>
    intro hc hm
    obtain ⟨b, h1, h2⟩ := follows_call hsz hl hr hc.pci hm op
    have h3 := (core_kept cfg dma p).call hc op (ho op (by simp))
    unfold run
    dsimp only
    by_cases hf : (call cfg st op).res.isFault = true
    · rw [if_pos hf]; exact ⟨b, .stop h2 hf, h1⟩
    · rw [if_neg hf]
      obtain ⟨c, h4, h5⟩ := ih (fun o h => ho o (by simp [h])) _ _ h3 h1
      exact ⟨c, .next h2 (by simpa using hf) h4, h5⟩

/-- C121: client and device, each from what it sees itself, agree on the state whenever the client knows it (C75). -/
theorem C121_agree (hr : cfg.hasReset = true) (hi : cfg.irq.Ok) (ht : TableOk cfg.tbl) (dma : Option (Nat × Nat)) (ops : List Op)
    (ho : ∀ op ∈ ops, op.Fair ∧ op.OSOk ∧ op.Resets ∧ op.Good Heard) (hno : Completes cfg (init cfg true dma p) ops) {n : Nat}
    (hn : known cfg (some 2) (init cfg true dma p) ops = some n) {b : MSt} (hb : Lives cfg .running (init cfg true dma p) ops b) :
    n = b.num := by
  obtain ⟨c, h1, h2⟩ := C121_account hsz hl hr dma ops fun o h => (ho o h).2.1
  obtain ⟨a, h3, h4⟩ := C75_account hi ht dma p ops ho hno
  rw [hb.unique h1, h4 n hn]
  rw [h2] at h3
  exact (Option.some.inj h3).symm

end

section
open Demo

/-- Set the state, reset by request, reset by function, in this order. -/
def stateTalk : List Op :=
  [.attach (.ok ⟨8, 1048576, 4096, false⟩), .run env (req 1 16 0 (stateBody 6) []),
    .run env (req 2 10 0 (cfgBody 0x84 (enc 2 0x8000)) []), .run env (req 3 13 0 [] []), .run refusing (req 4 16 0 (stateBody 3) [])]

/-- The device of C119 hears: move to pre-copy, a function level reset, a reset; then it is asked to stop and refuses to be
copied. -/
example : (calls (run fullDev (init fullDev true none Pci.ex8) stateTalk).2).filter
      (fun c => match c with | .quiesce _ => false | _ => true) =
    [.migState .preCopy, .reset .flr, .reset .device, .migState .stop, .migState .stopAndCopy] ∧
    (run fullDev (init fullDev true none Pci.ex8) stateTalk).1.mig = some 1 := by decide +kernel

example : ∃ b : MSt, Lives fullDev .running (init fullDev true none Pci.ex8) stateTalk b ∧
    (run fullDev (init fullDev true none Pci.ex8) stateTalk).1.mig = some b.num := by
  refine C121_account (by decide) full_layout (by decide) none stateTalk ?_
  intro o h
  simp only [stateTalk, List.mem_cons, List.not_mem_nil, or_false] at h
  rcases h with rfl | rfl | rfl | rfl | rfl
  · exact fun _ h => by cases h
  all_goals exact fun _ h => by cases h; exact os_ok

theorem full_table : TableOk fullDev.tbl := by
  unfold TableOk; decide +kernel

/-- Client and device of the conversation of C75: both know in the end that the device runs. -/
example {b : MSt} (hb : Lives fullDev .running (init fullDev true none Pci.ex8) moves b) : 2 = b.num :=
  C121_agree (by decide) full_layout (by decide) irq_ok full_table none moves moves_ok
    ⟨by decide +kernel, by decide +kernel, by decide +kernel, by decide +kernel, by decide +kernel, by decide +kernel,
      by decide +kernel, trivial⟩ (by decide +kernel) hb

/-- A function level reset leaves the state alone: the device is still in pre-copy. -/
theorem C121_flr : (run fullDev (init fullDev true none Pci.ex8) (stateTalk.take 3)).1.mig = some 6 ∧
    calls (call fullDev (run fullDev (init fullDev true none Pci.ex8) (stateTalk.take 2)).1
      (.run env (req 2 10 0 (cfgBody 0x84 (enc 2 0x8000)) []))).evs = [.quiesce none, .reset .flr] := by decide +kernel

/-- Why a device needs a reset callback: without it the library starts over by itself, and a device in pre-copy is asked for
pre-copy again, which is no arc. -/
theorem C121_unheard :
    let dev : Cfg := { fullDev with hasReset := false }
    let ops : List Op := [.attach (.ok ⟨8, 1048576, 4096, false⟩), .run env (req 1 16 0 (stateBody 6) []),
      .run env (req 3 13 0 [] []), .run env (req 4 16 0 (stateBody 6) [])]
    (calls (run dev (init dev true none Pci.ex8) ops).2).filter (fun c => match c with | .quiesce _ => false | _ => true) =
      [.migState .preCopy, .migState .preCopy] ∧
    ((List.range 5).map fun n => (run dev (init dev true none Pci.ex8) (ops.take n)).1.mig) =
      [some 2, some 2, some 6, some 2, some 6] ∧
    ¬ Arc .preCopy .preCopy := by
  refine ⟨by decide +kernel, by decide +kernel, ?_⟩
  intro h
  cases h

end

end Verif.Server
