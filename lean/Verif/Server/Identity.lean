import Verif.Server.Access
import Verif.Pci.Props

/-!
# The config space over a conversation (C87)

What a client can and cannot change of the config space, whatever it sends: the identity of the device never, the list of
capabilities and read-only capabilities not by writes that keep to one capability. -/

namespace Verif.Server
open Verif
open Verif.Dma (Fd)

/-! ## Invariants that depend on the device and on the requests -/

/-- A property of the state that requests of the kind `good`, resets and the device's own actions preserve, as long as the
device behaves according to `E` and its changes of the config space are of the kind `F`. -/
structure Minds (cfg : Cfg) (E : Env → Prop) (F : (Pci.Mem → Pci.Mem) → Prop) (good : Wire.In → Prop) (P : St → Prop) :
    Prop where
  exec : ∀ env st m, E env → good (.req m.hdr m.body m.fds) → P st → P (exec cfg env st m).st
  reset : ∀ env st, E env → P st → P (resetQuiesced cfg env st).st
  conn : ∀ st conn pending quiesced maxFds maxXfer, P st → P { st with conn, pending, quiesced, maxFds, maxXfer }
  config : ∀ st f, F f → P st → P { st with pci := { st.pci with mem := f st.pci.mem } }
  mark : ∀ st c, P st → P { st with dma := some c }

/-- The calls such a property is about. -/
def Op.By (E : Env → Prop) (F : (Pci.Mem → Pci.Mem) → Prop) (good : Wire.In → Prop) (op : Op) : Prop :=
  (∀ env, op.env? = some env → E env) ∧ (∀ f, op = .config f → F f) ∧ op.Good good

section
variable {cfg : Cfg} {E : Env → Prop} {F : (Pci.Mem → Pci.Mem) → Prop} {good : Wire.In → Prop} {P : St → Prop}
  (H : Minds cfg E F good P)
include H

theorem Minds.conn' {st : St} (h : P st) (c : Bool) (p : Pending) (q : Bool) : P { st with conn := c, pending := p, quiesced := q } :=
  H.conn st c p q st.maxFds st.maxXfer h

theorem Minds.resetCtx {env : Env} (he : E env) (k : Nat) {st : St} (h : P st) : P (resetCtx cfg env k st).st := by
  unfold Server.resetCtx
  by_cases hq : cfg.hasQuiesce = true ∧ st.pending = .none
  · rw [if_pos hq]
    dsimp only
    cases env.quiesce k with
    | none => exact H.reset env _ he h
    | some e =>
      dsimp only
      by_cases he : e = EBUSY
      · rw [if_pos he]; exact H.conn' h _ _ _
      · rw [if_neg he]; exact h
  · rw [if_neg hq]; exact H.reset env _ he h

theorem Minds.doReply {env : Env} (he : E env) (k : Nat) {st : St} (h : P st) (hd : Wire.Hdr) (body : Wire.Body)
    (fds : List (Option Fd)) (err : Nat) : P (doReply cfg env k st hd body fds err).st := by
  unfold Server.doReply
  by_cases hn : hd.noReply = true
  · rw [if_pos hn]; exact h
  rw [if_neg hn]
  dsimp only
  cases (Wire.reply env.snd hd body fds (err % U32)).1 with
  | ok _ => exact h
  | error e =>
    dsimp only
    by_cases hx : e = ECONNRESET ∨ e = ENOMSG
    · rw [if_pos hx]; exact H.resetCtx he k h
    · rw [if_neg hx]; exact h

theorem Minds.handleRequest {env : Env} (he : E env) (k : Nat) {st : St} (h : P st) {m : Msg} (hm : good (.req m.hdr m.body m.fds)) :
    P (handleRequest cfg env k st m).st := by
  have h1 := H.exec env st m he hm h
  unfold Server.handleRequest
  dsimp only
  by_cases hf : (Server.exec cfg env st m).res.isFault = true
  · rw [if_pos hf]; exact h1
  rw [if_neg hf, finish_st]
  exact H.doReply he k h1 _ _ _ _

theorem Minds.refuse {env : Env} (he : E env) (k : Nat) {st : St} (h : P st) (hd : Wire.Hdr) (fds : List Fd) (err : Nat) :
    P (refuse cfg env k st hd fds err).st := by
  rw [refuse_st]
  exact H.doReply he k h _ _ _ _

theorem Minds.dispatch {env : Env} (he : E env) {st : St} (h : P st) {m : Msg} (hm : good (.req m.hdr m.body m.fds)) : P (dispatch cfg env st m).st := by
  unfold Server.dispatch
  by_cases h1 : shouldExec st.mig m.hdr.cmd = false
  · rw [if_pos h1]; exact H.refuse he 0 h _ _ _
  rw [if_neg h1]
  by_cases h2 : needsQuiesce cfg st m = true
  · rw [if_pos h2]
    dsimp only
    cases env.quiesce 0 with
    | none => exact H.conn' (H.handleRequest he 1 (H.conn' h _ _ _) hm) _ _ _
    | some e =>
      dsimp only
      by_cases hx : e = EBUSY
      · rw [if_pos hx]; exact H.conn' h _ _ _
      · rw [if_neg hx]; exact H.refuse he 1 h _ _ _
  · rw [if_neg h2]; exact H.conn' (H.handleRequest he 0 h hm) _ _ _

theorem Minds.call {st : St} (h : P st) (hp : KeptGood good st) {op : Op} (ho : op.By E F good) : P (call cfg st op).st := by
  obtain ⟨hE, hF, hM⟩ := ho
  cases op with
  | run env i =>
    have he := hE env rfl
    simp only [Server.call]
    unfold poll
    by_cases h1 : st.pending ≠ .none
    · rw [if_pos h1]; exact h
    rw [if_neg h1]
    by_cases h2 : st.conn = false
    · rw [if_pos h2]; exact h
    rw [if_neg h2]
    cases i with
    | again => exact h
    | lost e leak => exact H.resetCtx he 0 h
    | failed e leak => exact h
    | bad hd fds e => exact H.refuse he 0 h _ _ _
    | req hd body fds => exact H.dispatch he h hM
  | quiesced env e =>
    have he := hE env rfl
    simp only [Server.call]
    unfold deviceQuiesced
    by_cases h1 : cfg.hasQuiesce = false ∨ st.pending = .none
    · rw [if_pos h1]; exact h
    rw [if_neg h1]
    dsimp only
    refine H.conn' ?_ _ _ _
    have hq : ∀ p, P { st with pending := p, quiesced := true } := fun p => H.conn' h _ _ _
    by_cases h2 : e = 0
    · rw [if_pos h2]
      cases hpd : st.pending with
      | none => exact h
      | msg m => exact H.handleRequest he 0 (hq _) (hp m hpd)
      | ctxReset => exact H.reset env _ he (hq _)
    · rw [if_neg h2]
      cases st.pending <;> exact hq _
  | transfer env lost =>
    have he := hE env rfl
    simp only [Server.call]
    unfold transfer
    by_cases h1 : st.pending ≠ .none
    · rw [if_pos h1]; exact h
    rw [if_neg h1]
    by_cases h2 : lost = true ∧ st.conn = true
    · rw [if_pos h2]; exact H.resetCtx he 0 h
    · rw [if_neg h2]; exact h
  | attach n =>
    simp only [Server.call]
    unfold attach
    by_cases h1 : st.conn = true
    · rw [if_pos h1]; exact h
    rw [if_neg h1]
    cases n with
    | error e => exact h
    | ok c => exact H.conn _ _ _ _ _ _ h
  | config f => exact H.config _ _ (hF f rfl) h
  | mark sgl =>
    simp only [Server.call]
    cases hd : st.dma with
    | none => exact h
    | some c =>
      dsimp only
      cases hs : Dma.sglMark c sgl with
      | ok c' => exact H.mark st c' h
      | err e => exact h
      | fault f => exact h
  | trigger wr sub => exact h

theorem Minds.run (ops : List Op) {st : St} (h : P st) (hp : KeptGood good st) (ho : ∀ op ∈ ops, op.By E F good) :
    P (run cfg st ops).1 := by
  have triv : Closed cfg (fun _ => True) good := by constructor <;> intros <;> trivial
  induction ops generalizing st with
  | nil => exact h
  | cons op ops ih =>
    simp only [Server.run]
    have h1 := H.call h hp (ho op (.head _))
    by_cases hf : (Server.call cfg st op).res.isFault = true
    · rw [if_pos hf]; exact h1
    · rw [if_neg hf]
      exact ih h1 (triv.call st hp op (ho op (.head _)).2.2).2 (fun op hop => ho op (.tail _ hop))

end

/-! ## What requests do to the config space -/

/-- The config space after a region access: as before, or as the emulation of C37 to C46 leaves it, for an access inside
the config space. -/
theorem access_pci {cfg : Cfg} (hsz : ∀ r ∈ cfg.tbl, r.size < U32) (env : Env) (st : St) (w : Bool) (body : List Byte)
    (fds : List Fd) :
    (access cfg env st w body fds).st.pci = st.pci ∨
    ∃ r buf, Region.AccessOk cfg.tbl (stopCopy st.mig) w body r ∧ leAt body 8 4 = 7 ∧ leAt body 12 4 ≠ 0 ∧
      buf = (if w = true then body.drop 16 else List.replicate (leAt body 12 4) 0#8) ∧ buf.length = leAt body 12 4 ∧
      (access cfg env st w body fds).st.pci =
        { st.pci with mem := (Pci.access (pciDev cfg env) st.pci buf (leAt body 12 4) (leAt body 0 8) w).mem } := by
  unfold access
  dsimp only [Done.pure]
  generalize hg : handlers cfg env st.pci = hd
  unfold Region.handleAccess
  by_cases h0 : body = []
  · rw [if_pos h0]; exact .inl rfl
  rw [if_neg h0]
  by_cases hv : Region.validAccess cfg.tbl (stopCopy st.mig) w body = false
  · rw [if_pos hv]; exact .inl rfl
  rw [if_neg hv]
  obtain ⟨r, ho⟩ := (Region.validAccess_iff hsz _ _ _).1 (by simpa using hv)
  dsimp only
  by_cases h1 : leAt body 12 4 = 0
  · rw [if_pos h1]; exact .inl rfl
  rw [if_neg h1]
  by_cases h2 : env.alloc = false
  · rw [if_pos h2]; exact .inl rfl
  rw [if_neg h2, ho.region]
  dsimp only
  generalize hbuf : (if w = true then body.drop 16 else List.replicate (leAt body 12 4) 0#8) = buf
  have hlen : buf.length = leAt body 12 4 := by
    rw [← hbuf]
    cases w with
    | true =>
      have := ho.payload rfl
      simp only [if_true, List.length_drop]; omega
    | false => simp
  have key : (afterCalls cfg env st.quiesced st.pci (Region.regionAccess hd r (leAt body 8 4) buf (leAt body 0 8) w).2.2).1 =
      st.pci ∨ leAt body 8 4 = 7 ∧
        (afterCalls cfg env st.quiesced st.pci (Region.regionAccess hd r (leAt body 8 4) buf (leAt body 0 8) w).2.2).1 =
        { st.pci with mem := (Pci.access (pciDev cfg env) st.pci buf (leAt body 12 4) (leAt body 0 8) w).mem } := by
    unfold Region.regionAccess
    by_cases hcf : leAt body 8 4 = Region.CFG_IDX ∧ r.flags &&& Region.FLAG_ALWAYS_CB = 0
    · rw [if_pos hcf]
      refine .inr ⟨hcf.1, ?_⟩
      dsimp only [afterCalls]
      rw [hlen]
    · rw [if_neg hcf]
      by_cases hcb : r.hasCb = false
      · rw [if_pos hcb]; exact .inl rfl
      · rw [if_neg hcb]; exact .inl rfl
  have fin : ∀ q : Pci.Pci, (q = st.pci ∨ leAt body 8 4 = 7 ∧ q =
        { st.pci with mem := (Pci.access (pciDev cfg env) st.pci buf (leAt body 12 4) (leAt body 0 8) w).mem }) →
      q = st.pci ∨ ∃ r buf', Region.AccessOk cfg.tbl (stopCopy st.mig) w body r ∧ leAt body 8 4 = 7 ∧ leAt body 12 4 ≠ 0 ∧
        buf' = buf ∧ buf'.length = leAt body 12 4 ∧ q =
        { st.pci with mem := (Pci.access (pciDev cfg env) st.pci buf' (leAt body 12 4) (leAt body 0 8) w).mem } := by
    rintro q (h | ⟨h7, h⟩)
    · exact .inl h
    · exact .inr ⟨r, buf, ho, h7, h1, rfl, hlen, h⟩
  generalize Region.regionAccess hd r (leAt body 8 4) buf (leAt body 0 8) w = o at key
  obtain ⟨ret, b, cs⟩ := o
  cases ret with
  | ok n =>
    dsimp only
    by_cases hn : n ≠ leAt body 12 4
    · rw [if_pos hn]; exact fin _ key
    · rw [if_neg hn]; exact fin _ key
  | err e => exact fin _ key
  | fault f => exact fin _ key

/-- The device's callbacks touch nothing of the config space outside the range they are called for, and transfer all of
it or fail. -/
structure Steady (cfg : Cfg) (env : Env) : Prop where
  here : Pci.Local (pciDev cfg env)
  honest : Pci.Honest (pciDev cfg env)

theorem Steady.reset {cfg : Cfg} {env : Env} (h : Steady cfg env) (hr : cfg.hasReset = true) (m : Pci.Mem) :
    env.resetMem m = m := by
  have := h.here.reset _ (by unfold pciDev; dsimp only; rw [if_pos hr]) m
  exact this

theorem deviceReset_pci {cfg : Cfg} {env : Env} (h : Steady cfg env) (st : St) (r : Reason) :
    (deviceReset cfg env st r).1.pci = st.pci := by
  unfold deviceReset
  by_cases hr : cfg.hasReset = true
  · rw [if_pos hr]
    dsimp only
    rw [h.reset hr]
    cases env.resetCb r <;> rfl
  · rw [if_neg hr]

theorem layout_parts {p q : Pci.Pci} (h : layout q = layout p) : q = { p with mem := q.mem } := by
  obtain ⟨m, a, s, b, cs, es, br, eo⟩ := p
  obtain ⟨m', a', s', b', cs', es', br', eo'⟩ := q
  simp only [layout, Pci.Pci.mk.injEq, true_and] at h
  obtain ⟨rfl, rfl, rfl, rfl, rfl, rfl, rfl⟩ := h
  rfl

theorem bounded_layout {p q : Pci.Pci} (h : layout q = layout p) (hb : Pci.Bounded p) : Pci.Bounded q := by
  rw [layout_parts h]
  exact ⟨hb.alloc, hb.small, hb.std, hb.caps⟩

theorem all_layout {p q : Pci.Pci} (h : layout q = layout p) : q.all = p.all := by
  rw [layout_parts h]
  rfl

/-- Bytes of the config space that accesses leave alone stay what they were over any conversation. -/
theorem bytes_mind {cfg : Cfg} (hsz : ∀ r ∈ cfg.tbl, r.size < U32) {p : Pci.Pci} (hr : ∀ r, cfg.tbl[7]? = some r → r.size ≤ p.size) {Z : Nat → Prop}
    {good : Wire.In → Prop}
    (hacc : ∀ env (q : Pci.Pci) (m : Msg), Steady cfg env → layout q = layout p → good (.req m.hdr m.body m.fds) → ∀ w, (w = true → m.hdr.cmd = 10) →
      leAt m.body 8 4 = 7 → ∀ buf : List Byte, buf.length = leAt m.body 12 4 → leAt m.body 12 4 ≠ 0 →
      leAt m.body 0 8 + leAt m.body 12 4 ≤ q.size → ∀ a, Z a →
      (Pci.access (pciDev cfg env) q buf (leAt m.body 12 4) (leAt m.body 0 8) w).mem a = q.mem a) :
    Minds cfg (Steady cfg) (fun f => ∀ m a, Z a → f m a = m a) good
      (fun st => layout st.pci = layout p ∧ ∀ a, Z a → st.pci.mem a = p.mem a) where
  exec := by
    intro env st m he hg h
    have acc : ∀ w, (w = true → m.hdr.cmd = 10) → layout (access cfg env st w m.body m.fds).st.pci = layout p ∧
        ∀ a, Z a → (access cfg env st w m.body m.fds).st.pci.mem a = p.mem a := by
      intro w hw
      rcases access_pci hsz env st w m.body m.fds with h1 | ⟨r, buf, ho, h7, h0, _, hlen, h1⟩
      · rw [h1]; exact h
      · rw [h1]
        refine ⟨h.1, fun a ha => ?_⟩
        have hs : leAt m.body 0 8 + leAt m.body 12 4 ≤ st.pci.size := by
          have h2 := hr r (by rw [← h7]; exact ho.region)
          have h4 : st.pci.size = p.size := by rw [layout_parts h.1]
          have h3 := ho.bound
          omega
        exact (hacc env st.pci m he h.1 hg w hw h7 buf hlen h0 hs a ha).trans (h.2 a ha)
    have key : ∀ d : Done, d.st.pci = st.pci → layout d.st.pci = layout p ∧ ∀ a, Z a → d.st.pci.mem a = p.mem a := by
      intro d hd; rw [hd]; exact h
    refine exec_elim (P := fun d => layout d.st.pci = layout p ∧ ∀ a, Z a → d.st.pci.mem a = p.mem a) cfg env st m
      ?_ ?_ ?_ ?_ ?_ ?_ ?_ ?_ ?_ ?_ ?_ ?_ ?_ ?_ ?_
    · exact fun _ _ => h
    · exact fun c _ _ => dmaMap_elim (P := fun d => layout d.st.pci = layout p ∧ ∀ a, Z a → d.st.pci.mem a = p.mem a)
        cfg env st c _ _ (fun _ _ => h) (fun _ _ => h)
    · exact fun c _ _ => dmaUnmap_elim (P := fun d => layout d.st.pci = layout p ∧ ∀ a, Z a → d.st.pci.mem a = p.mem a)
        cfg env st c _ _ (fun _ _ => h) (fun _ _ _ _ => h)
    iterate 5 exact fun _ => h
    · exact fun _ => acc false (fun h => by cases h)
    · exact fun hc => acc true (fun _ => hc)
    · exact fun _ => key { st := (deviceReset cfg env st .device).1, res := .ok (), out := .bytes [], outFds := [], left := [], evs := [] }
        (deviceReset_pci he st .device)
    iterate 4 exact fun _ => h
  reset := by
    intro env st he h
    unfold resetQuiesced
    cases dropDma cfg st.dma with
    | err e => exact h
    | fault f => exact h
    | ok x =>
      dsimp only
      have h1 := deviceReset_pci he { st with dma := x.1 } .lostConn
      cases Irq.reset cfg.irq (deviceReset cfg env { st with dma := x.1 } .lostConn).1.irqs <;>
        exact ⟨(congrArg layout h1).trans h.1, fun a ha => (congrArg (fun q : Pci.Pci => q.mem a) h1).trans (h.2 a ha)⟩
  conn := fun _ _ _ _ _ _ h => h
  config := fun st f hf h => ⟨h.1, fun a ha => (hf _ a ha).trans (h.2 a ha)⟩
  mark := fun _ _ h => h

/-! ## The identity of the device -/

/-- C87: vendor, device, revision, class, header type, subsystem, capability pointer and interrupt pin stay what they
were through any conversation: no request, no reset, no lost connection changes them. The device itself does not touch
them (`hf`), and its callbacks keep to what they are called for. -/
theorem C87_identity {cfg : Cfg} (hs : ∀ r ∈ cfg.tbl, r.size < U32) {st : St} (hb : Pci.Bounded st.pci)
    (hr : ∀ r, cfg.tbl[7]? = some r → r.size ≤ st.pci.size) {ops : List Op}
    (hd : ∀ op ∈ ops, ∀ env, op.env? = some env → Steady cfg env)
    (hf : ∀ op ∈ ops, ∀ f, op = .config f → ∀ m a, Pci.roHdr a → f m a = m a) :
    ∀ a, Pci.roHdr a → (run cfg st ops).1.pci.mem a = st.pci.mem a := by
  have H : Minds cfg (Steady cfg) (fun f => ∀ m a, Pci.roHdr a → f m a = m a) (fun _ => True)
      (fun s => layout s.pci = layout st.pci ∧ ∀ a, Pci.roHdr a → s.pci.mem a = st.pci.mem a) := by
    refine bytes_mind hs hr ?_
    intro env q m he hq _ w _ _ buf hlen _ hsz a ha
    have hbq := bounded_layout hq hb
    have := hbq.small
    exact Pci.loop_ro he.here he.honest hbq w ha _ _ _ _ _ _ (fun _ => hlen) (by simp only [U64]; omega)
  refine (H.run ops ⟨rfl, fun _ _ => rfl⟩ (fun _ _ => trivial) ?_).2
  intro op ho
  refine ⟨hd op ho, hf op ho, ?_⟩
  cases op <;> trivial

/-! ## The capabilities -/

/-- The range lies in the header, inside one capability, or outside of both. -/
def Contained (p : Pci.Pci) (off count : Nat) : Prop :=
  off + count ≤ 64 ∨ (∃ c ∈ p.all, Pci.Inside c off count) ∨
  64 ≤ off ∧ ∀ c ∈ p.all, off + count ≤ c.off ∨ c.off + c.size ≤ off

/-- A client that writes to one capability at a time. -/
def Orderly (p : Pci.Pci) : Wire.In → Prop
  | .req hd body _ => hd.cmd = 10 → leAt body 8 4 = 7 → Contained p (leAt body 0 8) (leAt body 12 4)
  | _ => True

/-- What the client cannot change: the identity, the header of every capability, read-only capabilities, and, where there
is no extended capability, the header that says so. -/
def Fixed (p : Pci.Pci) (a : Nat) : Prop :=
  Pci.roHdr a ∨ (∃ c ∈ p.all, c.off ≤ a ∧ (a < c.off + c.hdr ∨ c.ro = true ∧ a < c.off + c.size)) ∨
  p.exts = [] ∧ 256 ≤ a ∧ a < 260

theorem reach_noCb {p : Pci.Pci} {b : Bool} (h : Pci.Reach b p) (hb : b = false) : ∀ c ∈ p.all, c.cbk = false := by
  subst hb
  have nocb : ∀ {p p' : Pci.Pci} {pos off : Nat} {fl : Pci.CapFlags} {data : List Byte},
      Pci.addCap false p pos fl data = (p', .ok off) → fl.cbk = false := by
    intro p p' pos off fl data ha
    unfold Pci.addCap at ha
    by_cases h1 : fl.bad = true
    · rw [if_pos h1] at ha; cases ha
    rw [if_neg h1] at ha
    by_cases h2 : fl.cbk = true
    · rw [if_pos ⟨h2, rfl⟩] at ha; cases ha
    · simpa using h2
  generalize hbb : false = b at h nocb
  induction h with
  | init big bar => intro c hc; cases hc
  | std hp h1 h2 _ _ _ _ ih =>
    obtain ⟨size, _, _, _, _, _, _, _, e⟩ := Pci.addStd_ok hp.inv (Pci.addCap_std h1 h2)
    intro c hc
    rw [e] at hc
    simp only [Pci.Pci.all, List.mem_append, List.mem_singleton] at hc
    rcases hc with (hc | hc) | hc
    · exact ih c (List.mem_append_left _ hc)
    · rw [hc]; exact nocb h2
    · exact ih c (List.mem_append_right _ hc)
  | ext hp h1 h2 _ _ _ ih =>
    obtain ⟨size, m', _, _, _, _, _, _, _, _, e, _⟩ := Pci.addExt_ok hp.inv (Pci.addCap_ext h1 h2)
    intro c hc
    rw [e] at hc
    simp only [Pci.Pci.all, List.mem_append, List.mem_singleton] at hc
    rcases hc with hc | hc | hc
    · exact ih c (List.mem_append_left _ hc)
    · exact ih c (List.mem_append_right _ hc)
    · rw [hc]; exact nocb h2
  | other _ _ ih => exact ih

/-- A write clear of header and capabilities changes nothing, where no callback serves the config space. -/
theorem clear_write {dev : Pci.Dev} (hh : Pci.Honest dev) (hcb : dev.cb = none) {p : Pci.Pci} (hb : Pci.Bounded p) {buf : List Byte}
    {count off : Nat} (hc : 0 < count) (hl : buf.length = count) (hlt : off + count < U64) (h64 : 64 ≤ off)
    (hd : ∀ c ∈ p.all, off + count ≤ c.off ∨ c.off + c.size ≤ off) :
    (Pci.access dev p buf count off true).mem = p.mem := by
  have hs : Pci.nextSegment p count off true = some (.dflt, count) := by
    unfold Pci.nextSegment
    rw [if_neg (by omega)]
    cases hf : Pci.capFind p off count with
    | none => rfl
    | some c =>
      obtain ⟨h1, h2⟩ := Pci.capFind_some hf
      have h3 := (Pci.ri_iff hb h1 hlt).1 h2
      have h4 := hd c h1
      dsimp only
      rw [if_pos (by omega)]
      congr 2
      omega
  rw [(Pci.access_one hh hc (fun _ => hl) hs).1]
  unfold Pci.serve Pci.nonstd
  rw [hcb]
  rfl

/-- An access of an orderly client leaves the fixed bytes alone. -/
theorem fixed_access {dev : Pci.Dev} (hl : Pci.Local dev) (hh : Pci.Honest dev) (hcb : dev.cb = none) {p : Pci.Pci}
    (h : Pci.Inv p) (hk : ∀ c ∈ p.all, c.cbk = false) {q : Pci.Pci} (hq : layout q = layout p) {buf : List Byte} {count off : Nat}
    {w : Bool} (hw : w = true → Contained p off count) (hlen : buf.length = count) (hc : 0 < count) (hsz : off + count ≤ q.size)
    {a : Nat} (ha : Fixed p a) : (Pci.access dev q buf count off w).mem a = q.mem a := by
  have hb := bounded_layout hq h.bnd
  have hsm := hb.small
  have hlt : off + count < U64 := by simp only [U64]; omega
  cases w with
  | false => rw [(Pci.C38_read hcb hb buf hsz).2.2.1]
  | true =>
    have hall := all_layout hq
    have hdj : Pci.Disj q := by
      have := Pci.disj_of_inv h
      unfold Pci.Disj at this ⊢
      rwa [hall]
    have fr := fun h => Pci.C45_frame (buf := buf) (count := count) (off := off) (write := true) (a := a) hl hh hb (fun _ => hlen) hlt h
    have fits : ∀ c ∈ p.all, c.hdr ≤ c.size := by
      intro c hcm
      rcases List.mem_append.1 hcm with hx | hx
      · exact (h.std c hx).fits
      · exact (h.ext c hx).fits
    rcases hw rfl with h1 | ⟨c, hcm, hi⟩ | ⟨h1, h2⟩
    · rcases ha with ha | ⟨c, hcm, h2, _⟩ | ⟨_, h2, _⟩
      · exact Pci.loop_ro hl hh hb true ha _ _ _ _ _ _ (fun _ => hlen) hlt
      · have := (h.bnd.caps c hcm).1
        exact fr (by omega)
      · exact fr (by omega)
    · have hin := Pci.C41_contained hl hh hb hdj (hall ▸ hcm) hc hlen hi (.inl hcb)
      obtain ⟨hi1, hi2⟩ := hi
      rcases ha with ha | ⟨d, hdm, h2, h3⟩ | ⟨he, h2, h3⟩
      · exact Pci.loop_ro hl hh hb true ha _ _ _ _ _ _ (fun _ => hlen) hlt
      · have hfd := fits d hdm
        by_cases hcd : d = c
        · subst hcd
          rcases h3 with h3 | ⟨h3, _⟩
          · exact hin.2.1 (hk d hcm) a h2 h3
          · rw [(hin.1 h3).1]
        · rcases h.apart hdm hcm with h4 | h4
          · exact absurd h4 hcd
          · unfold Pci.Apart at h4
            exact fr (by omega)
      · rcases List.mem_append.1 hcm with hx | hx
        · have := (h.std c hx).hi
          exact fr (by omega)
        · rw [he] at hx; cases hx
    · rw [clear_write hh hcb hb hc hlen hlt h1 (hall ▸ h2)]

/-- C87: while the client keeps its writes to one capability at a time, the fixed bytes stay what they were through any
conversation, and the config space is one that `vfu_pci_add_capability` builds: its lists of capabilities are those
the device set up. -/
theorem C87_capabilities {cfg : Cfg} (hs : ∀ r ∈ cfg.tbl, r.size < U32) {st : St} (hp : Pci.Reach false st.pci)
    (hr : ∀ r, cfg.tbl[7]? = some r → r.size ≤ st.pci.size ∧ r.hasCb = false) {ops : List Op}
    (hg : ∀ op ∈ ops, op.Good (Orderly st.pci)) (hk : KeptGood (Orderly st.pci) st)
    (hd : ∀ op ∈ ops, ∀ env, op.env? = some env → Steady cfg env)
    (hf : ∀ op ∈ ops, ∀ f, op = .config f → ∀ m a, Fixed st.pci a → f m a = m a) :
    let p := (run cfg st ops).1.pci
    p.caps = st.pci.caps ∧ p.exts = st.pci.exts ∧ p.size = st.pci.size ∧ (∀ a, Fixed st.pci a → p.mem a = st.pci.mem a) ∧
      Pci.Reach false p := by
  have H : Minds cfg (Steady cfg) (fun f => ∀ m a, Fixed st.pci a → f m a = m a) (Orderly st.pci)
      (fun s => layout s.pci = layout st.pci ∧ ∀ a, Fixed st.pci a → s.pci.mem a = st.pci.mem a) := by
    refine bytes_mind hs (fun r h => (hr r h).1) ?_
    intro env q m he hq hg w hw h7 buf hlen h0 hsz a ha
    refine fixed_access he.here he.honest ?_ hp.inv (reach_noCb hp rfl) hq (fun h => hg (hw h) h7) hlen (by omega) hsz ha
    unfold pciDev
    dsimp only
    rw [if_neg]
    cases h8 : cfg.tbl[Region.CFG_IDX]? with
    | none => simp
    | some r => simp [(hr r h8).2]
  obtain ⟨h1, h2⟩ := H.run ops ⟨rfl, fun _ _ => rfl⟩ hk (fun op ho => ⟨hd op ho, hf op ho, hg op ho⟩)
  intro p
  have e : p = { st.pci with mem := p.mem } := layout_parts h1
  refine ⟨by rw [e], by rw [e], by rw [e], h2, ?_⟩
  rw [e]
  refine .other hp ⟨?_, ?_, ?_⟩
  · exact h2 _ (.inl (by unfold Pci.roHdr; omega))
  · exact fun c hc a ha hb => h2 a (.inr (.inl ⟨c, hc, ha, .inl hb⟩))
  · exact fun he a ha hb => h2 a (.inr (.inr ⟨he, ha, hb⟩))

/-- C87: what a client reads of the fixed bytes, at any time, is what the device set up. -/
theorem C87_read {cfg : Cfg} (ht : TableOk cfg.tbl) (hs : ∀ r ∈ cfg.tbl, r.size < U32) {st : St} (hp : Pci.Reach false st.pci)
    (hr : ∀ r, cfg.tbl[7]? = some r → r.size ≤ st.pci.size ∧ r.hasCb = false ∧ r.flags.testBit 3 = false) {ops : List Op}
    (hg : ∀ op ∈ ops, op.Good (Orderly st.pci)) (hk : KeptGood (Orderly st.pci) st)
    (hd : ∀ op ∈ ops, ∀ env, op.env? = some env → Steady cfg env)
    (hf : ∀ op ∈ ops, ∀ f, op = .config f → ∀ m a, Fixed st.pci a → f m a = m a)
    {env : Env} {m : Msg} (hn : Next cfg env (run cfg st ops).1 m) (hc : m.hdr.cmd = 9) {r : Region.Reg}
    (hok : Region.AccessOk cfg.tbl (decide ((run cfg st ops).1.mig = some 3)) false m.body r)
    (h7 : leAt m.body 8 4 = 7) (hz : leAt m.body 12 4 ≠ 0)
    (hfix : ∀ a, leAt m.body 0 8 ≤ a → a < leAt m.body 0 8 + leAt m.body 12 4 → Fixed st.pci a) :
    Answered m 0 (m.body.take 16 ++ Pci.rdM st.pci.mem (leAt m.body 0 8) (leAt m.body 12 4))
      (call cfg (run cfg st ops).1 (.run env (.req m.hdr m.body m.fds))) := by
  obtain ⟨_, _, h3, h4, h5⟩ := C87_capabilities hs hp (fun r h => ⟨(hr r h).1, (hr r h).2.1⟩) hg hk hd hf
  have hdec : decide (m.hdr.cmd = 10) = false := by rw [hc]; rfl
  have h8 := hr r (by rw [← h7]; exact hok.region)
  have hcb : (pciDev cfg env).cb = none := by
    unfold pciDev
    dsimp only
    rw [if_neg]
    cases h9 : cfg.tbl[Region.CFG_IDX]? with
    | none => simp
    | some r => simp [(hr r h9).2.1]
  have hrd := Pci.C38_read hcb h5.inv.bnd (given m) (count := leAt m.body 12 4) (off := leAt m.body 0 8)
    (by rw [h3]; have := hok.bound; have := h8.1; omega)
  have h := C73_config ht hs hn (.inl hc) (r := r) (by rw [hdec]; exact hok) hz h7 h8.2.2 (by rw [hdec, hrd.1]; rfl)
  rw [hdec] at h
  have h9 := h.1.1 hrd.1 (fun _ => by rw [hrd.2.1, Pci.rdM_length])
  rw [hrd.2.1] at h9
  unfold accessReply at h9
  rw [if_neg (by rw [hc]; decide)] at h9
  rwa [Pci.rdM_congr (fun a ha hb => h4 a (hfix a ha hb))] at h9

section
open Demo

/-- A vendor capability of 8 bytes at 0x40 with a read-only one right behind it, vendor 0x1234 and device 0x5678. -/
def cards : Pci.Pci :=
  (Pci.addCap false (Pci.addCap false { Pci.init false Pci.exBar with mem := Pci.wrM (fun _ => 0#8) 0 (Pci.pad [0x34, 0x12, 0x78, 0x56] 4) }
    0 Pci.std (Pci.pad [9, 0, 8] 8)).1 0 Pci.stdRo (Pci.pad [9, 0, 8, 1, 2, 3, 4, 5] 8)).1

theorem cards_reach : Pci.Reach false cards :=
  ((Pci.Reach.other (Pci.Reach.init false Pci.exBar : Pci.Reach false (Pci.init false Pci.exBar))
    (m' := Pci.wrM (fun _ => 0#8) 0 (Pci.pad [0x34, 0x12, 0x78, 0x56] 4))
    ⟨by decide +kernel, (fun _ h => by cases h), fun _ a h1 _ => by
      rw [Pci.wrM_out (by simp [Pci.pad]; omega)]; rfl⟩).addStd 0 Pci.std _ 0x40 8 rfl (by decide +kernel) rfl
    (by decide +kernel) (by decide +kernel)).addStd 0 Pci.stdRo _ 0x48 8 rfl (by decide +kernel) rfl (by decide +kernel) (by decide +kernel)

def withCards : St := init dev true (some (8, 2 ^ 40)) cards

/-- A write to the config space. -/
def poke (off : Nat) (bs : List Nat) : Op :=
  .run env (req 5 10 0 (enc 8 off ++ enc 4 7 ++ enc 4 bs.length ++ bs.map (BitVec.ofNat 8)) [])

/-- The client writes to the vendor capability, tries the header of the other, the device id and the command register. -/
def pokes : List Op := [hello, poke 0x44 [1, 2, 3, 4], poke 0x48 [7], poke 0 [1, 1, 1, 1], poke 4 [6, 0], .run env (.lost ENOTCONN []), hello]

theorem env_steady : Steady dev env :=
  ⟨⟨(fun f h => by cases h), (fun f h => by injection h with h; subst h; intro m; rfl)⟩,
    ⟨(fun f h => by cases h), (fun f h => by injection h with h; subst h; intro m; exact .inl rfl)⟩⟩

theorem pokes_env : ∀ op ∈ pokes, ∀ e, op.env? = some e → Steady dev e := by
  intro op ho e he
  have : e = env := by
    simp only [pokes, List.mem_cons, List.not_mem_nil, or_false] at ho
    rcases ho with rfl | rfl | rfl | rfl | rfl | rfl | rfl <;> first | (cases he; done) | (injection he with he; exact he.symm)
  rw [this]
  exact env_steady

theorem pokes_quiet : ∀ op ∈ pokes, ∀ f, op ≠ .config f := by
  intro op ho f
  simp only [pokes, List.mem_cons, List.not_mem_nil, or_false] at ho
  rcases ho with rfl | rfl | rfl | rfl | rfl | rfl | rfl <;> exact fun h => by cases h

theorem pokes_orderly : ∀ op ∈ pokes, op.Good (Orderly cards) := by
  intro op ho
  simp only [pokes, List.mem_cons, List.not_mem_nil, or_false] at ho
  rcases ho with rfl | rfl | rfl | rfl | rfl | rfl | rfl
  · trivial
  · exact fun _ _ => .inr (.inl ⟨⟨false, 9, 0x40, 3, 8, false, false⟩, by decide +kernel, by unfold Pci.Inside; decide +kernel⟩)
  · exact fun _ _ => .inr (.inl ⟨⟨false, 9, 0x48, 3, 8, true, false⟩, by decide +kernel, by unfold Pci.Inside; decide +kernel⟩)
  · exact fun _ _ => .inl (by decide +kernel)
  · exact fun _ _ => .inl (by decide +kernel)
  · trivial
  · trivial

def afterPokes : St := (run dev withCards pokes).1

-- the command register and the vendor capability have changed
example : afterPokes.pci.mem 4 = 6#8 ∧ afterPokes.pci.mem 0x44 = 1#8 := by decide +kernel

example : ∀ a, Pci.roHdr a → afterPokes.pci.mem a = cards.mem a :=
  C87_identity dev_table.2 (st := withCards) cards_reach.inv.bnd (by decide +kernel) pokes_env
    (fun op ho f h => absurd h (pokes_quiet op ho f))

-- the next client reads the read-only capability as it was set up
example :
    let rd : Msg := ⟨hdr 7 9 0 16, enc 8 0x48 ++ enc 4 7 ++ enc 4 8, []⟩
    Answered rd 0 (rd.body ++ Pci.pad [9, 0, 8, 1, 2, 3, 4, 5] 8) (call dev afterPokes (.run env (.req rd.hdr rd.body rd.fds))) := by
  intro rd
  have hcard : (⟨false, 9, 0x48, 3, 8, true, false⟩ : Pci.Cap) ∈ withCards.pci.all := by decide +kernel
  have hm : afterPokes.mig = some 2 := by decide +kernel
  have h := C87_read dev_table.1 dev_table.2 (st := withCards) cards_reach (by decide +kernel) pokes_orderly
    (fun _ h => by cases h) pokes_env (fun op ho f h => absurd h (pokes_quiet op ho f)) (env := env) (m := rd)
    (next_req env_fair rfl rfl ⟨by decide +kernel, by decide +kernel⟩ hm 7 9 rd.body [] (by decide) (by decide) (by decide) (by decide) (by simp))
    rfl (r := { Region.Reg.blank with flags := 3, size := 256 })
    (by
      rw [show (run dev withCards pokes).1 = afterPokes from rfl, hm]
      exact ⟨by decide, by decide, by decide, by decide, by decide, by decide⟩)
    (by decide) (by decide)
    (by
      rw [show leAt rd.body 0 8 = 0x48 from by decide +kernel, show leAt rd.body 12 4 = 8 from by decide +kernel]
      exact fun a h1 h2 => .inr (.inl ⟨⟨false, 9, 0x48, 3, 8, true, false⟩, hcard, h1, .inr ⟨rfl, h2⟩⟩))
  have e : Pci.rdM withCards.pci.mem (leAt rd.body 0 8) (leAt rd.body 12 4) = Pci.pad [9, 0, 8, 1, 2, 3, 4, 5] 8 := by decide +kernel
  rw [e] at h
  exact h

/-- Without the discipline: one write that runs out of the vendor capability replaces the read-only one behind it, for
this client and for those to come; the list of capabilities ends elsewhere. -/
theorem C87_violated :
    let st := (run dev withCards [hello, poke 0x44 [1, 2, 3, 4, 5, 0x80, 8, 0xff], .run env (.lost ENOTCONN []), hello]).1
    Fixed cards 0x48 ∧ cards.mem 0x48 = 9#8 ∧ st.pci.mem 0x48 = 5#8 ∧ Fixed cards 0x49 ∧ cards.mem 0x49 = 0#8 ∧
      st.pci.mem 0x49 = 0x80#8 := by
  intro st
  have hc : (⟨false, 9, 0x48, 3, 8, true, false⟩ : Pci.Cap) ∈ cards.all := by decide +kernel
  exact ⟨.inr (.inl ⟨_, hc, by decide, .inl (by decide)⟩), by decide +kernel, by decide +kernel,
    .inr (.inl ⟨_, hc, by decide, .inl (by decide)⟩), by decide +kernel, by decide +kernel⟩

end

end Verif.Server
