import Verif.Server.Loop
import Verif.Server.Renew
import Verif.Server.Migrate
import Verif.Wire.Announce

/-!
# Clients, one after the other

C100.  A client connects, says which version it speaks, asks, and leaves; then comes the next one.  C50 and C97 are about the
first message, C85 about the ones after it, C89 about two clients.  Here they are put together: from the first byte a client
writes to the last one it reads, for any number of clients. -/

namespace Verif.Server
open Verif
open Verif.Dma (Fd)

/-- What does not change from client to client: json-c's parser and printer, the page size, whether a second socket is wanted
(LIBVFIO_USER_FLAG_TWIN_SOCKET is a flag of the context, `lib/tran_sock.c:458-462`). -/
structure House where
  json : List Byte → Option Wire.Json
  pr : Wire.Json → Option (List Byte)
  page : Nat
  twin : Bool

/-- A client.  `sock`: what it had written when its version message was read (the read waits for all of it).  `snd`, `pair`, `mem`:
`sendmsg`, `socketpair` and the allocations during the negotiation.  `steps`: what happens then. -/
structure Visit where
  sock : Wire.Sock
  snd : Wire.Send
  pair : Except Nat Fd
  mem : List Bool
  steps : List Step

/-- What came of it.  `said`: the messages sent to this client. -/
structure Seen where
  st : St
  said : List Wire.Sent
  evs : List Ev
  rets : List Ret
  inLoop : Bool
  dead : Bool

/-- `vfu_attach_ctx` (`lib/tran_sock.c:442-473`, `lib/tran.c:456-498`) and everything up to the next one.  A connection whose negotiation
fails is closed (`lib/tran_sock.c:464-470`). -/
def receive (cfg : Cfg) (H : House) (st : St) (v : Visit) : Seen :=
  let r := Wire.recvMsg v.sock
  match Wire.greet v.snd H.json H.pr H.page st.mig.isSome H.twin v.pair v.mem r.1 with
  | none => { st, said := [], evs := [], rets := [], inLoop := false, dead := true }
  | some n =>
    let o := attach st n.res
    match n.res with
    | .error _ => { st := o.st, said := n.sent, evs := [], rets := [], inLoop := false, dead := false }
    | .ok _ =>
      let m := go cfg { Mach.start o.st with sock := r.2 } v.steps
      { st := m.st, said := n.sent ++ sents m.evs, evs := m.evs, rets := m.rets, inLoop := m.loop.isSome, dead := m.dead }

/-- The client is gone and the context waits for the next one. -/
def Seen.Over (s : Seen) : Prop := s.dead = false ∧ s.inLoop = false ∧ s.st.conn = false ∧ s.st.pending = .none

instance (s : Seen) : Decidable s.Over := by unfold Seen.Over; infer_instance

/-- The clients that are received, with the context as each of them finds it. -/
def receiveAll (cfg : Cfg) (H : House) : St → List Visit → List (St × Visit)
  | _, [] => []
  | st, v :: vs => (st, v) :: if (receive cfg H st v).Over then receiveAll cfg H (receive cfg H st v).st vs else []

/-! ## What is claimed -/

/-- The client wrote this version message, and after it these requests. -/
structure Visit.Opens (v : Visit) (h : Wire.Hdr) (body : List Byte) (rest : List Wire.Msg) : Prop where
  cells : v.sock.cells = Wire.plain (h.bytes ++ body) ++ rest.flatMap Wire.Msg.cells
  lim : v.sock.lim = []
  fits : h.Fits
  type : h.flags % 16 = 0
  size : h.size = 16 + body.length
  max : body.length ≤ 1048576 + 16
  rest : ∀ x ∈ rest, x.Ok

/-- Sockets and memory work during the negotiation. -/
structure Visit.Easy (v : Visit) (fd : Fd) : Prop where
  snd : Wire.Healthy v.snd
  pair : v.pair = .ok fd
  mem : v.mem = []

/-- json-c can print what the server announces and read it back. -/
structure House.Able (H : House) (mig : Bool) : Prop where
  page : H.page ≤ 9223372036854775807
  speaks : ∀ (two : Bool) (j : Wire.Json), Wire.build (if mig = true then some H.page else none) (if two = true then some 0 else none) [] =
    .ok j [] → Wire.Speaks H.pr H.json j

/-- The answer to the version message: success, the smaller minor version, the announcement of C97. -/
def Welcomes (H : House) (mig : Bool) (h : Wire.Hdr) (body : List Byte) (c : Wire.Caps) (fd : Fd) (w : Wire.Sent) : Prop :=
  ∃ rb two, Wire.IsReply h 0 rb w.bytes ∧ leAt rb 2 2 = min (leAt body 2 2) 2 ∧
    (two = true ↔ c.twin = true ∧ H.twin = true ∧ 0 < c.maxFds) ∧ w.fds = (if two = true then [fd] else []) ∧
    ∃ j, H.json (Wire.text rb) = some j ∧ Wire.Announces j (if mig = true then some H.page else none) two

theorem delivered_cells {h : Wire.Hdr} (hf : h.Fits) (ht : h.flags % 16 = 0) (body : List Byte) (rest : List Wire.Cell)
    (hs : h.size = 16 + body.length) (hm : body.length ≤ 1048576 + 16) (closed : Bool) :
    Wire.recvMsg { cells := Wire.plain (h.bytes ++ body) ++ rest, closed, lim := [] } =
      (.ok (h, body), { cells := rest, closed, lim := [] }) := by
  have hrc := Wire.recv_full (Wire.plain h.bytes) (Wire.plain body ++ rest) closed Wire.HDR
    (by rw [Wire.plain_length, Wire.Hdr.bytes_length]; rfl) (by decide)
  have ho : Wire.Hdr.ofBytes h.bytes = h := by
    have := Wire.Hdr.ofBytes_bytes h hf []
    rwa [List.append_nil] at this
  unfold Wire.recvMsg
  rw [Wire.plain_append, List.append_assoc, hrc]
  dsimp only
  rw [if_neg (by rw [Wire.plain_length, Wire.Hdr.bytes_length]; decide), Wire.plain_fds, if_neg (by simp), Wire.plain_fst, ho,
    if_neg (not_not_intro (show h.type = Wire.TYPE_COMMAND from ht)),
    if_neg (by simp only [Wire.HDR, Wire.MAX_MSG, Region.MAX_XFER]; omega)]
  by_cases hz : h.size = Wire.HDR
  · rw [if_pos hz]
    have : body = [] := by
      simp only [Wire.HDR] at hz
      exact List.length_eq_zero_iff.mp (by omega)
    subst this
    rfl
  · rw [if_neg hz]
    have hb : body.length = h.size - Wire.HDR := by simp only [Wire.HDR]; omega
    have hpos : 0 < h.size - Wire.HDR := by simp only [Wire.HDR] at hz ⊢; omega
    rw [Wire.recv_full (Wire.plain body) rest closed (h.size - Wire.HDR) (by rw [Wire.plain_length, hb]) hpos]
    dsimp only
    rw [if_neg (by rw [Wire.plain_length, hb]; simp), Wire.plain_fst]

section
variable {cfg : Cfg} {H : House} {st : St} {v : Visit} {h : Wire.Hdr} {body : List Byte} {rest : List Wire.Msg}

theorem Visit.Opens.read (ho : v.Opens h body rest) :
    Wire.recvMsg v.sock = (.ok (h, body), { cells := rest.flatMap Wire.Msg.cells, closed := v.sock.closed, lim := [] }) := by
  have := delivered_cells ho.fits ho.type body (rest.flatMap Wire.Msg.cells) ho.size ho.max v.sock.closed
  rw [← ho.cells] at this
  rw [← this]
  congr 1
  cases hs : v.sock with
  | mk cells closed lim =>
    have := ho.lim
    rw [hs] at this
    dsimp only at this
    rw [this]

/-- The first steps as the loop sees them. -/
def Visit.start (v : Visit) (rest : List Wire.Msg) : List Step :=
  .arrive (rest.flatMap Wire.Msg.cells) v.sock.closed :: v.steps

/-- The context of a client whose version was agreed to. -/
def admitted (st : St) (c : Wire.Caps) : St := { st with conn := true, maxFds := c.maxFds, maxXfer := c.maxXfer }

theorem go_start (st : St) (rest : List Wire.Msg) (closed : Bool) (steps : List Step) :
    go cfg { Mach.start st with sock := { cells := rest.flatMap Wire.Msg.cells, closed, lim := [] } } steps =
      go cfg (Mach.start st) (.arrive (rest.flatMap Wire.Msg.cells) closed :: steps) := by
  unfold go
  rw [List.foldl_cons]
  congr 1

theorem receive_admitted {mig : Bool} (hm : st.mig.isSome = mig) (hc : st.conn = false) (hH : H.Able mig) {fd : Fd} (he : v.Easy fd)
    (ho : v.Opens h body rest) {c : Wire.Caps} (ha : Wire.Accepts H.json H.page mig h body c) :
    ∃ w, Welcomes H mig h body c fd w ∧
      receive cfg H st v =
        { st := (go cfg (Mach.start (admitted st c)) (v.start rest)).st,
          said := w :: sents (go cfg (Mach.start (admitted st c)) (v.start rest)).evs,
          evs := (go cfg (Mach.start (admitted st c)) (v.start rest)).evs,
          rets := (go cfg (Mach.start (admitted st c)) (v.start rest)).rets,
          inLoop := (go cfg (Mach.start (admitted st c)) (v.start rest)).loop.isSome,
          dead := (go cfg (Mach.start (admitted st c)) (v.start rest)).dead } := by
  obtain ⟨w, rb, two, h1, h2, h3, h4, h5, _⟩ := Wire.C97_greeting v.snd he.snd H.json H.pr H.page hH.page mig H.twin hH.speaks fd h
    ho.fits body ha
  refine ⟨{ bytes := w, fds := if two = true then [fd] else [] }, ⟨rb, two, h3, h4, h2, rfl, h5⟩, ?_⟩
  unfold receive
  rw [ho.read, hm, he.pair, he.mem]
  dsimp only
  rw [h1]
  dsimp only
  have : (attach st (.ok c)).st = admitted st c := by
    unfold attach
    rw [if_neg (by rw [hc]; simp)]
    rfl
  rw [this, go_start]
  rfl

/-- C100: whatever clients were there before, a client that opens with a version message the server agrees to reads first the
answer to it and then the replies to its requests, one each and in order, except for those still in the socket and one held back
for a quiesce; and the limits in force are those it asked for. -/
theorem C100_conversation (ht : TableOk cfg.tbl) {mig : Bool} {dma : Option (Nat × Nat)} (hr : Reachable cfg mig dma st)
    (hc : st.conn = false) (hp : st.pending = .none) (hH : H.Able mig) {fd : Fd} (he : v.Easy fd) (ho : v.Opens h body rest)
    {c : Wire.Caps} (ha : Wire.Accepts H.json H.page mig h body c) (hown : ∀ s ∈ v.steps, s.Own) (hf : ∀ s ∈ v.steps, s.Fine)
    (hos : ∀ s ∈ v.steps, s.OSOk) (hd : (receive cfg H st v).dead = false) :
    ∃ w took left ws answered, (receive cfg H st v).said = w :: ws ∧ Welcomes H mig h body c fd w ∧
      (∀ x ∈ took ++ left, x.Ok) ∧
      rest.flatMap Wire.Msg.cells ++ brought v.steps = (took ++ left).flatMap Wire.Msg.cells ∧
      arrivals (receive cfg H st v).evs = took.map (fun x => (x.h, x.fds)) ∧
      wantReply took = answered ++ (match (receive cfg H st v).st.pending with
        | .msg m => if m.hdr.noReply = false then [m.hdr] else []
        | _ => []) ∧
      List.Forall₂ Answers answered ws ∧
      ((receive cfg H st v).st.maxFds, (receive cfg H st v).st.maxXfer) = (c.maxFds, c.maxXfer) := by
  obtain ⟨w, hw, hrec⟩ := receive_admitted (cfg := cfg) hr.mig hc hH he ho ha
  rw [hrec] at hd ⊢
  dsimp only at hd ⊢
  have hown' : ∀ s ∈ v.start rest, s.Own := by
    intro s hs
    rcases List.mem_cons.mp hs with rfl | hs
    · trivial
    · exact hown s hs
  have hf' : ∀ s ∈ v.start rest, s.Fine := by
    intro s hs
    rcases List.mem_cons.mp hs with rfl | hs
    · exact ⟨rest, ho.rest, rfl⟩
    · exact hf s hs
  have hos' : ∀ s ∈ v.start rest, s.OSOk := by
    intro s hs
    rcases List.mem_cons.mp hs with rfl | hs
    · trivial
    · exact hos s hs
  obtain ⟨took, left, g1, g2, g3, g4, ws, g5, g6⟩ := C85_session ht (admitted st c) hp (v.start rest) hown' hf' hd
  refine ⟨w, took, left, _, ws, rfl, hw, g1, ?_, g4, g5, g6, ?_⟩
  · rw [← g2]; rfl
  · obtain ⟨ops, k1, k2, k3, _⟩ := C85_history (admitted st c) (v.start rest) hown' hd
    rw [← k3, C76_limits cfg ops _ ?_ k2]
    · have : ∀ (ops : List Op) (s : St) (x : Int × Nat), (∀ op ∈ ops, ∀ n, op ≠ .attach n) → announced cfg x s ops = x := by
        intro ops
        induction ops with
        | nil => intro s x _; rfl
        | cons op ops ih =>
          intro s x hn
          unfold announced
          have : announce x op (call cfg s op).res = x := by
            cases op with
            | attach n => exact absurd rfl (hn _ (List.mem_cons_self ..) n)
            | _ => rfl
          rw [this]
          exact ih _ _ (fun op h => hn op (List.mem_cons_of_mem _ h))
      exact this ops _ _ fun op hop n hn => by
        subst hn
        exact hown' _ (k1 _ hop)
    · intro op hop env henv
      have := k1 op hop
      cases op with
      | run e i => cases henv; exact hos' _ this.1
      | _ => exact hos' _ this env henv

/-! ## One after the other -/

/-- The device accepts the resets at the loss of the connection. -/
def Step.Accepts (cfg : Cfg) : Step → Prop
  | .round env => cfg.hasReset = true → env.resetCb .lostConn = none
  | .dev op => op.Accepts cfg
  | _ => True

/-- The state after calls of this kind, none of which ended the process. -/
def Lived (cfg : Cfg) (mig : Bool) (dma : Option (Nat × Nat)) (P : Op → Prop) (st : St) : Prop :=
  ∃ pci ops, (∀ op ∈ ops, P op) ∧ Completes cfg (init cfg mig dma pci) ops ∧ st = (run cfg (init cfg mig dma pci) ops).1

section
variable {mig : Bool} {dma : Option (Nat × Nat)} {P : Op → Prop}

theorem Lived.more (h : Lived cfg mig dma P st) (ops : List Op) (hp : ∀ op ∈ ops, P op) (hc : Completes cfg st ops) :
    Lived cfg mig dma P (run cfg st ops).1 := by
  obtain ⟨pci, l, h1, h2, rfl⟩ := h
  refine ⟨pci, l ++ ops, ?_, completes_app l ops _ h2 hc, ?_⟩
  · intro op hop
    rcases List.mem_append.mp hop with hop | hop
    · exact h1 op hop
    · exact hp op hop
  · rw [run_app l ops _ h2]

theorem Lived.reachable (h : Lived cfg mig dma P st) (hP : ∀ op, P op → op.OSOk) : Reachable cfg mig dma st := by
  obtain ⟨pci, l, h1, _, h3⟩ := h
  exact ⟨pci, l, fun op hop => hP op (h1 op hop), h3⟩

theorem Lived.past (h : Lived cfg mig dma P st) (hP : ∀ op, P op → op.OSOk ∧ op.Accepts cfg) : Past cfg mig dma st := by
  obtain ⟨pci, l, h1, _, h3⟩ := h
  exact ⟨pci, l, fun op hop => hP op (h1 op hop), h3⟩

theorem run_attach (st : St) (n : Except Nat Wire.Caps) (hc : st.conn = false) :
    Completes cfg st [.attach n] ∧ (run cfg st [.attach n]).1 = (attach st n).st := by
  have : (attach st n).res.isFault = false := by
    unfold attach
    rw [if_neg (by rw [hc]; simp)]
    cases n <;> rfl
  refine ⟨⟨this, trivial⟩, ?_⟩
  unfold run
  dsimp only
  rw [if_neg (by show ¬ (attach st n).res.isFault = true; rw [this]; simp)]
  rfl

/-- A visit is a piece of history. -/
theorem Lived.receive (h : Lived cfg mig dma P st) (hc : st.conn = false) (hown : ∀ s ∈ v.steps, s.Own)
    (hP : ∀ op, (∀ env, op.env? = some env → .round env ∈ v.steps ∨ .dev op ∈ v.steps) → P op)
    (hd : (receive cfg H st v).dead = false) : Lived cfg mig dma P (receive cfg H st v).st := by
  unfold Server.receive at hd ⊢
  dsimp only at hd ⊢
  cases hg : Wire.greet v.snd H.json H.pr H.page st.mig.isSome H.twin v.pair v.mem (Wire.recvMsg v.sock).1 with
  | none => rw [hg] at hd; cases hd
  | some n =>
    rw [hg] at hd
    dsimp only at hd ⊢
    obtain ⟨a1, a2⟩ := run_attach (cfg := cfg) st n.res hc
    have ha : Lived cfg mig dma P (attach st n.res).st := by
      rw [← a2]
      refine h.more _ (fun op hop => ?_) a1
      rw [List.mem_singleton.mp hop]
      exact hP _ (fun env he => by cases he)
    cases hn : n.res with
    | error e => rw [hn] at ha; exact ha
    | ok c =>
      rw [hn] at ha hd
      dsimp only at hd ⊢
      obtain ⟨ops, k1, k2, k3, _⟩ := history_go { Mach.start (attach st (.ok c)).st with sock := (Wire.recvMsg v.sock).2 } rfl v.steps
        hown hd
      rw [← k3]
      refine ha.more ops (fun op hop => ?_) k2
      have := k1 op hop
      cases op with
      | run env i => exact hP _ (fun e he => by cases he; exact .inl this.1)
      | _ => exact hP _ (fun e he => .inr this)

theorem turns (vs : List Visit) (hown : ∀ v ∈ vs, ∀ s ∈ v.steps, s.Own)
    (hP : ∀ v ∈ vs, ∀ op : Op, (∀ env, op.env? = some env → .round env ∈ v.steps ∨ .dev op ∈ v.steps) → P op) :
    ∀ st, Lived cfg mig dma P st → st.conn = false → st.pending = .none → ∀ x ∈ receiveAll cfg H st vs,
      x.2 ∈ vs ∧ x.1.conn = false ∧ x.1.pending = .none ∧ Lived cfg mig dma P x.1 := by
  induction vs with
  | nil => intro st _ _ _ x hx; cases hx
  | cons v vs ih =>
    intro st hl hc hp x hx
    unfold receiveAll at hx
    rcases List.mem_cons.mp hx with rfl | hx
    · exact ⟨List.mem_cons_self, hc, hp, hl⟩
    · by_cases ho : (receive cfg H st v).Over
      · rw [if_pos ho] at hx
        obtain ⟨h1, h2⟩ := ih (fun w hw => hown w (List.mem_cons_of_mem _ hw)) (fun w hw => hP w (List.mem_cons_of_mem _ hw)) _
          (hl.receive hc (hown v List.mem_cons_self) (hP v List.mem_cons_self) ho.1) ho.2.2.1 ho.2.2.2 x hx
        exact ⟨List.mem_cons_of_mem _ h1, h2⟩
      · rw [if_neg ho] at hx; cases hx

/-- C100: the clients come one after the other: each finds a context without client and without open request, which the calls of the
earlier ones left behind. -/
theorem C100_turns (pci : Pci.Pci) (vs : List Visit) (hown : ∀ v ∈ vs, ∀ s ∈ v.steps, s.Own)
    (hos : ∀ v ∈ vs, ∀ s ∈ v.steps, s.OSOk) :
    ∀ x ∈ receiveAll cfg H (init cfg mig dma pci) vs, x.2 ∈ vs ∧ x.1.conn = false ∧ x.1.pending = .none ∧
      Reachable cfg mig dma x.1 ∧ ((∀ v ∈ vs, ∀ s ∈ v.steps, s.Accepts cfg) → Past cfg mig dma x.1) := by
  intro x hx
  have h0 : ∀ P, Lived cfg mig dma P (init cfg mig dma pci) := fun P => ⟨pci, [], (fun _ h => by cases h), trivial, rfl⟩
  have hP1 : ∀ v ∈ vs, ∀ op : Op, (∀ env, op.env? = some env → .round env ∈ v.steps ∨ .dev op ∈ v.steps) → op.OSOk := by
    intro v hv op h env he
    rcases h env he with h | h
    · exact hos v hv _ h
    · exact hos v hv _ h env he
  obtain ⟨h1, h2, h3, h4⟩ := turns vs hown hP1 _ (h0 _) rfl rfl x hx
  refine ⟨h1, h2, h3, h4.reachable (fun _ h => h), fun hacc => ?_⟩
  obtain ⟨_, _, _, h5⟩ := turns (P := fun op => op.OSOk ∧ op.Accepts cfg) vs hown (fun v hv op h => ⟨hP1 v hv op h, by
    intro env he
    rcases h env he with h | h
    · exact hacc v hv _ h
    · exact hacc v hv _ h env he⟩) _ (h0 _) rfl rfl x hx
  exact h5.past (fun _ h => h)

theorem receive_anew (hi : cfg.irq.Ok) (h : Past cfg mig dma st) (hc : st.conn = false) (hl : logPage st = 0) (v : Visit) :
    receive cfg H st v = receive cfg H (init cfg mig dma st.pci) v ∨
      ∃ said dead, ∀ s, s = st ∨ s = init cfg mig dma st.pci →
        receive cfg H s v = { st := s, said, evs := [], rets := [], inLoop := false, dead } := by
  have h0 : Past cfg mig dma (init cfg mig dma st.pci) := ⟨st.pci, [], (fun _ h => by cases h), rfl⟩
  have hm : ∀ s, s = st ∨ s = init cfg mig dma st.pci → s.mig.isSome = mig := by
    have : ∀ s, Past cfg mig dma s → s.conn = false → s.mig.isSome = mig := by
      intro s hs hc
      rw [((hs.alone hi).vacant hc).1.mig]
      cases mig <;> rfl
    rintro s (rfl | rfl)
    · exact this _ h hc
    · exact this _ h0 rfl
  cases hg : Wire.greet v.snd H.json H.pr H.page mig H.twin v.pair v.mem (Wire.recvMsg v.sock).1 with
  | none =>
    right
    refine ⟨[], true, fun s hs => ?_⟩
    unfold receive
    dsimp only
    rw [hm s hs, hg]
  | some n =>
    cases hn : n.res with
    | error e =>
      right
      refine ⟨n.sent, false, fun s hs => ?_⟩
      unfold receive
      dsimp only
      rw [hm s hs, hg]
      dsimp only
      rw [hn]
      dsimp only
      have : (attach s (.error e)).st = s := by
        unfold attach
        rw [if_neg (by rcases hs with rfl | rfl; rw [hc]; simp; exact Bool.false_ne_true)]
      rw [this]
    | ok c =>
      left
      have hst : (attach st (.ok c)).st = (attach (init cfg mig dma st.pci) (.ok c)).st := by
        have := (C89_isolated hi (a := init cfg mig dma st.pci) h0 h rfl hc rfl
          (by rw [hl]; unfold logPage init; cases dma <;> rfl) [.attach (.ok c)]).2
        rw [(run_attach _ _ rfl).2, (run_attach _ _ hc).2] at this
        exact this rfl
      unfold receive
      dsimp only
      rw [hm _ (.inl rfl), hm _ (.inr rfl), hg]
      dsimp only
      rw [hn]
      dsimp only
      rw [hst]

/-- C100: to each of them it is as if it were the first: everything this client and all later ones are told, and all that is
done for them, is what it would be on a freshly realized device with that config space.  Unless dirty pages are logged, C89. -/
theorem C100_anew (hi : cfg.irq.Ok) (h : Past cfg mig dma st) (hc : st.conn = false) (hl : logPage st = 0) (vs : List Visit) :
    (receiveAll cfg H st vs).map (fun x => ((receive cfg H x.1 x.2).said, (receive cfg H x.1 x.2).evs, (receive cfg H x.1 x.2).rets)) =
      (receiveAll cfg H (init cfg mig dma st.pci) vs).map
        (fun x => ((receive cfg H x.1 x.2).said, (receive cfg H x.1 x.2).evs, (receive cfg H x.1 x.2).rets)) := by
  induction vs with
  | nil => rfl
  | cons v vs ih =>
    unfold receiveAll
    rw [List.map_cons, List.map_cons]
    rcases receive_anew (H := H) hi h hc hl v with he | ⟨said, dead, he⟩
    · dsimp only
      rw [he]
    · dsimp only
      rw [he st (.inl rfl), he _ (.inr rfl)]
      dsimp only
      cases dead with
      | true => rw [if_neg (fun hh => by cases hh.1), if_neg (fun hh => by cases hh.1)]
      | false => rw [if_pos ⟨rfl, rfl, hc, ((h.alone hi).vacant hc).2⟩, if_pos ⟨rfl, rfl, rfl, rfl⟩, ih]

/-! ## Refused; served to the end -/

/-- C100: a client whose version message cannot be agreed to reads one refusal and nothing else, nothing else of what it wrote is
looked at, and the next client finds what this one found. -/
theorem C100_refused (hr : Reachable cfg mig dma st) (hc : st.conn = false) {fd : Fd} (he : v.Easy fd) (ho : v.Opens h body rest)
    (ha : ∀ c, ¬ Wire.Accepts H.json H.page mig h body c) :
    ∃ w, Wire.IsReply h EINVAL [] w ∧ receive cfg H st v =
      { st, said := [{ bytes := w, fds := [] }], evs := [], rets := [], inLoop := false, dead := false } := by
  rcases Wire.C50_negotiate v.snd he.snd H.json H.page mig H.twin fd (fun _ => []) h ho.fits body (fun _ => by decide) with
    ⟨c, _, _, _, hacc, _⟩ | ⟨_, w, hn, hw⟩
  · exact absurd hacc (ha c)
  refine ⟨w, hw, ?_⟩
  have hg : Wire.greet v.snd H.json H.pr H.page mig H.twin (.ok fd) [] (.ok (h, body)) =
      some (Wire.negotiate v.snd H.json H.page mig H.twin (.ok fd) (fun _ => []) (.ok (h, body))) := by
    unfold Wire.greet
    dsimp only
    cases hv : Wire.recvVersion H.json H.page mig h body with
    | error e => rfl
    | ok x => exact absurd ((Wire.recvVersion_iff H.json H.page mig h body x.1 x.2).mp hv).1 (ha _)
  unfold receive
  rw [ho.read, hr.mig, he.pair, he.mem]
  dsimp only
  rw [hg, hn]
  dsimp only
  unfold attach
  rw [if_neg (by rw [hc]; simp)]

theorem cells_inj : ∀ a b : List Wire.Msg, (∀ x ∈ a, x.Ok) → (∀ x ∈ b, x.Ok) →
    a.flatMap Wire.Msg.cells = b.flatMap Wire.Msg.cells → a = b := by
  intro a
  induction a with
  | nil =>
    intro b _ _ hab
    cases b with
    | nil => rfl
    | cons y b =>
      have := congrArg List.length hab
      rw [List.flatMap_cons, List.length_append, cells_length, List.flatMap_nil, List.length_nil] at this
      omega
  | cons x a ih =>
    intro b ha hb hab
    cases b with
    | nil =>
      have := congrArg List.length hab
      rw [List.flatMap_cons, List.length_append, cells_length, List.flatMap_nil, List.length_nil] at this
      omega
    | cons y b =>
      rw [List.flatMap_cons, List.flatMap_cons] at hab
      have h1 := Wire.next_msg x (ha x List.mem_cons_self) (a.flatMap Wire.Msg.cells) true
      have h2 := Wire.next_msg y (hb y List.mem_cons_self) (b.flatMap Wire.Msg.cells) true
      rw [hab, h2] at h1
      obtain ⟨xh, xb, xf⟩ := x
      obtain ⟨yh, yb, yf⟩ := y
      simp only [Prod.mk.injEq, Wire.In.req.injEq, Wire.Sock.mk.injEq] at h1
      obtain ⟨⟨rfl, rfl, rfl⟩, h3, _⟩ := h1
      rw [ih b (fun z hz => ha z (List.mem_cons_of_mem _ hz)) (fun z hz => hb z (List.mem_cons_of_mem _ hz)) h3.symm]

/-- C100: a client that wrote all it has to say and closed its end is served to the end by one blocking call: it reads the answer to
its version message and the reply to each of its requests that wants one, in order; then the context waits for the next client.
`envs`: enough rounds. -/
theorem C100_farewell (hi : cfg.irq.Ok) (ht : TableOk cfg.tbl) (hr : Reachable cfg mig dma st) (hc : st.conn = false)
    (hp : st.pending = .none) (hH : H.Able mig) {fd : Fd} (he : v.Easy fd) (ho : v.Opens h body rest)
    {c : Wire.Caps} (ha : Wire.Accepts H.json H.page mig h body c) (hcl : v.sock.closed = true) (envs : List Env)
    (hsteps : v.steps = .enter true :: envs.map .round) (hs : ∀ env ∈ envs, Smooth cfg env)
    (hlen : v.sock.cells.length < envs.length) (hd : (receive cfg H st v).dead = false) :
    ∃ w ws, (receive cfg H st v).said = w :: ws ∧ Welcomes H mig h body c fd w ∧
      List.Forall₂ Answers (wantReply rest) ws ∧ arrivals (receive cfg H st v).evs = rest.map (fun x => (x.h, x.fds)) ∧
      (receive cfg H st v).rets = [.failed ENOTCONN] ∧ (receive cfg H st v).Over := by
  obtain ⟨w, hw, hrec⟩ := receive_admitted (cfg := cfg) hr.mig hc hH he ho ha
  rw [hrec] at hd ⊢
  dsimp only at hd ⊢
  have hst : v.start rest = [.arrive (rest.flatMap Wire.Msg.cells) true, .enter true] ++ envs.map .round := by
    unfold Visit.start
    rw [hsteps, hcl]
    rfl
  rw [hst] at hd ⊢
  have hpre : go cfg (Mach.start (admitted st c)) [.arrive (rest.flatMap Wire.Msg.cells) true, .enter true] =
      { Mach.start (admitted st c) with sock := ⟨rest.flatMap Wire.Msg.cells, true, []⟩, loop := some (true, 0) } := rfl
  have hb : brought [.arrive (rest.flatMap Wire.Msg.cells) true, .enter true] = rest.flatMap Wire.Msg.cells := List.append_nil _
  have hpre1 : ∀ s ∈ [Step.arrive (rest.flatMap Wire.Msg.cells) true, .enter true], s.Own ∧ s.Fine ∧ s.OSOk := by
    intro s hs
    rcases List.mem_cons.mp hs with rfl | hs
    · exact ⟨trivial, ⟨rest, ho.rest, rfl⟩, trivial⟩
    · rw [List.mem_singleton.mp hs]; exact ⟨trivial, trivial, trivial⟩
  obtain ⟨r1, r2, r3, r4, all, r5, r6, r7, r8⟩ := served_go hi ht (st := admitted st c) hr.tables hp
    [.arrive (rest.flatMap Wire.Msg.cells) true, .enter true] (fun s hs => (hpre1 s hs).1) (fun s hs => (hpre1 s hs).2.1)
    (fun s hs => (hpre1 s hs).2.2) (n := 0) (by rw [hpre]) (by rw [hpre]) (by rw [hpre]; rfl) (by rw [hpre]; exact hp) envs hs
    (by
      rw [hpre]
      dsimp only
      refine Nat.lt_of_le_of_lt ?_ hlen
      rw [ho.cells, List.length_append]
      exact Nat.le_add_left ..) hd
  rw [hb] at r6
  obtain rfl := cells_inj rest all ho.rest r5 r6
  exact ⟨w, _, rfl, hw, r8, r7, by rw [r2, hpre]; rfl, hd, by rw [r1]; rfl, r3, r4⟩

end

end

/-! ## Examples -/

section
open Demo

/-- A device that cannot be migrated; the texts are those of `Wire.scribe`. -/
def inn : House := { json := Wire.lector, pr := Wire.scribe, page := 4096, twin := true }

theorem inn_able : inn.Able false where
  page := by decide
  speaks two j hj := by
    cases two with
    | false => cases hj; exact ⟨[1#8], rfl, rfl, by decide, by decide⟩
    | true => cases hj; exact ⟨[2#8], rfl, rfl, by decide, by decide⟩

/-- A version message of this major version, without capabilities. -/
def preface (major : Nat) : Wire.Hdr × List Byte := (hdr 7 1 0 4, enc 2 major ++ enc 2 1)

theorem preface_fits (major : Nat) : (preface major).1.Fits :=
  show (hdr 7 1 0 4).Fits from by constructor <;> decide

/-- Says its version, asks, and closes; the application makes one blocking call. -/
def guest (major : Nat) (l : List Wire.Msg) : Visit :=
  { sock := { cells := Wire.plain ((preface major).1.bytes ++ (preface major).2) ++ l.flatMap Wire.Msg.cells, closed := true, lim := [] }
    snd := fun n => .ok n, pair := .ok 9, mem := [], steps := .enter true :: (List.replicate 101 env).map .round }

def asking : List Wire.Msg := [letter 1 2 (mapBody 0x900000) [7], letter 2 4 infoBody []]

theorem asking_ok : ∀ x ∈ asking, x.Ok := by
  intro x hx
  simp only [asking, List.mem_cons, List.not_mem_nil, or_false] at hx
  rcases hx with rfl | rfl
  · exact letter_ok (by decide) (by decide) (by decide) (.inl (by decide)) (by decide)
  · exact letter_ok (by decide) (by decide) (by decide) (.inl (by decide)) (by decide)

theorem guest_opens (major : Nat) (l : List Wire.Msg) (hl : ∀ x ∈ l, x.Ok) :
    (guest major l).Opens (preface major).1 (preface major).2 l where
  cells := rfl
  lim := rfl
  fits := preface_fits major
  type := rfl
  size := rfl
  max := by show (enc 2 major ++ enc 2 1).length ≤ _; rw [List.length_append, enc_length, enc_length]; decide
  rest := hl

theorem guest_easy (major : Nat) (l : List Wire.Msg) : (guest major l).Easy 9 := ⟨fun _ => rfl, rfl, rfl⟩

theorem guest_accepted : Wire.Accepts inn.json inn.page false (preface 0).1 (preface 0).2
    { maxFds := 1, maxXfer := 1048576, pgsize := 0, twin := false } :=
  ⟨rfl, by decide, by decide, fun _ => rfl, by decide, (fun hh => absurd hh (by decide)), by decide, by decide⟩

theorem guest_refused : ∀ c, ¬ Wire.Accepts inn.json inn.page false (preface 1).1 (preface 1).2 c :=
  fun _ hh => absurd hh.major (by decide)

theorem guest_steps (major : Nat) (l : List Wire.Msg) : ∀ s ∈ (guest major l).steps, s.Own ∧ s.Fine ∧ s.OSOk ∧ s.Accepts cfg := by
  intro s hs
  rcases List.mem_cons.mp hs with rfl | hs
  · exact ⟨trivial, trivial, trivial, trivial⟩
  · obtain ⟨e, he, rfl⟩ := List.mem_map.mp hs
    rw [(List.mem_replicate.mp he).2]
    exact ⟨trivial, ⟨env_fair.snd, env_fair.alloc⟩, os_ok, fun _ => rfl⟩

def vacancy : St := init cfg false (some (8, 2 ^ 40)) pci

theorem vacancy_reachable : Reachable cfg false (some (8, 2 ^ 40)) vacancy := ⟨pci, [], (fun _ h => by cases h), rfl⟩

/-- C100: served to the end. -/
example : ∃ w ws, (receive cfg inn vacancy (guest 0 asking)).said = w :: ws ∧
    Welcomes inn false (preface 0).1 (preface 0).2 { maxFds := 1, maxXfer := 1048576, pgsize := 0, twin := false } 9 w ∧
    List.Forall₂ Answers (wantReply asking) ws ∧ (receive cfg inn vacancy (guest 0 asking)).Over := by
  obtain ⟨w, ws, h1, h2, h3, _, _, h4⟩ := C100_farewell irq_ok table_ok vacancy_reachable rfl rfl inn_able (guest_easy 0 asking)
    (guest_opens 0 asking asking_ok) guest_accepted rfl (List.replicate 101 env) rfl
    (fun e he => by rw [(List.mem_replicate.mp he).2]; exact env_smooth) (by decide +kernel) (by decide +kernel)
  exact ⟨w, ws, h1, h2, h3, h4⟩

/-- C100: the general statement on the same visit. -/
example : ∃ w, ∃ took : List Wire.Msg, ∃ ws, (receive cfg inn vacancy (guest 0 asking)).said = w :: ws ∧
    arrivals (receive cfg inn vacancy (guest 0 asking)).evs = took.map (fun x : Wire.Msg => (x.h, x.fds)) ∧
    ((receive cfg inn vacancy (guest 0 asking)).st.maxFds, (receive cfg inn vacancy (guest 0 asking)).st.maxXfer) = (1, 1048576) := by
  obtain ⟨w, took, _, ws, _, h1, _, _, _, h2, _, _, h3⟩ := C100_conversation table_ok vacancy_reachable rfl rfl inn_able (guest_easy 0 asking)
    (guest_opens 0 asking asking_ok) guest_accepted (fun s hs => (guest_steps 0 asking s hs).1)
    (fun s hs => (guest_steps 0 asking s hs).2.1) (fun s hs => (guest_steps 0 asking s hs).2.2.1) (by decide +kernel)
  exact ⟨w, took, ws, h1, h2, h3⟩

/-- C100: refused. -/
example : ∃ w, Wire.IsReply (preface 1).1 EINVAL [] w ∧ receive cfg inn vacancy (guest 1 asking) =
    { st := vacancy, said := [{ bytes := w, fds := [] }], evs := [], rets := [], inLoop := false, dead := false } :=
  C100_refused vacancy_reachable rfl (guest_easy 1 asking) (guest_opens 1 asking asking_ok) guest_refused

/-- Three clients, the second of which is refused. -/
def guests : List Visit := [guest 0 asking, guest 1 asking, guest 0 (asking ++ [letter 3 13 [] []])]

example : (receiveAll cfg inn vacancy guests).map (fun x => (receive cfg inn x.1 x.2).said.map
      (fun w => ((Wire.Hdr.ofBytes w.bytes).id, (Wire.Hdr.ofBytes w.bytes).err))) =
    [[(7, 0), (1, 0), (2, 0)], [(7, EINVAL)], [(7, 0), (1, 0), (2, 0), (3, 0)]] := by
  decide +kernel

example : ∀ x ∈ receiveAll cfg inn vacancy guests, x.1.conn = false ∧ x.1.pending = .none ∧ Past cfg false (some (8, 2 ^ 40)) x.1 := by
  intro x hx
  have hg : ∀ v ∈ guests, ∃ major l, v = guest major l := by
    intro v hv
    simp only [guests, List.mem_cons, List.not_mem_nil, or_false] at hv
    rcases hv with rfl | rfl | rfl <;> exact ⟨_, _, rfl⟩
  have hs : ∀ v ∈ guests, ∀ s ∈ v.steps, s.Own ∧ s.Fine ∧ s.OSOk ∧ s.Accepts cfg := by
    intro v hv
    obtain ⟨major, l, rfl⟩ := hg v hv
    exact guest_steps major l
  obtain ⟨_, h1, h2, _, h3⟩ := C100_turns pci guests (fun v hv s h => (hs v hv s h).1) (fun v hv s h => (hs v hv s h).2.2.1) x hx
  exact ⟨h1, h2, h3 fun v hv s h => (hs v hv s h).2.2.2⟩

/-- C100: after the client of `gone`, the same for all that follow. -/
example : (receiveAll cfg inn (run cfg (init cfg true (some (8, 2 ^ 40)) pci) gone).1 guests).map
      (fun x => ((receive cfg inn x.1 x.2).said, (receive cfg inn x.1 x.2).evs, (receive cfg inn x.1 x.2).rets)) =
    (receiveAll cfg inn (init cfg true (some (8, 2 ^ 40)) (run cfg (init cfg true (some (8, 2 ^ 40)) pci) gone).1.pci) guests).map
      (fun x => ((receive cfg inn x.1 x.2).said, (receive cfg inn x.1 x.2).evs, (receive cfg inn x.1 x.2).rets)) :=
  C100_anew irq_ok gone_past (by decide +kernel) (by decide +kernel) guests

end

end Verif.Server
