import Verif.Wire.Refused

/-!
# C103: requests and DMA at the same time

The client's requests come over the connection.  The device's DMA messages go over the second socket if one was agreed upon
(`tran_negotiate`), else over the connection too, where the answer to one is looked for in front of whatever the client has written
in the meantime. -/

namespace Verif.Wire
open Verif
open Verif.Dma (Fd)

/-! ## The model -/

/-- What is under way between a client and a server.  `conn`: what the client wrote to the connection and the server has not read.
`second`: the same for the second socket; `none`: there is none.  `peer`, `id`: the client's memory, the static `msg_id`.  `got`,
`done`: the requests read and the results of the transfers so far. -/
structure Lines (σ : Type) where
  conn : Sock
  second : Option (List Byte)
  peer : σ
  id : Nat
  got : List In
  done : List (Res Unit × List Byte)

/-- `arrive`: the client writes to the connection, or closes it.  `take`: the server reads a request.  `read`, `write`: the device
calls `vfu_sgl_read`, `vfu_sgl_write`. -/
inductive Doing where
  | arrive (cells : List Cell) (close : Bool)
  | take
  | read (sg : Dma.Sg)
  | write (sg : Dma.Sg) (data : List Byte)

/-- `lib/tran_sock.c:628-650` `tran_sock_send_msg`: the socket that is used.  Descriptors sent along with what is unread on the
connection are left out (`recvReply` fails on them, see `C103_header`). -/
def Lines.channel {σ : Type} (l : Lines σ) : List Byte :=
  match l.second with
  | some q => q
  | none => l.conn.cells.map Prod.fst

/-- After a transfer. -/
def Lines.leave {σ : Type} (l : Lines σ) (x : Xfer σ) : Lines σ :=
  let l' := { l with peer := x.peer, id := x.id, done := l.done ++ [(x.res, x.data)] }
  match l.second with
  | some _ => { l' with second := some x.inq }
  | none => { l' with conn := { l.conn with cells := plain x.inq } }

/-- One thing after the other: the library is not called from two threads.  What follows from the loss of the connection is in the
server model. -/
def doing {σ : Type} (snd : Send) (p : Peer σ) (max : Nat) (l : Lines σ) : Doing → Lines σ
  | .arrive cells close => { l with conn := { l.conn with cells := l.conn.cells ++ cells, closed := l.conn.closed || close } }
  | .take => { l with conn := (next l.conn).2, got := l.got ++ [(next l.conn).1] }
  | .read sg => l.leave (dmaRead snd p max l.peer l.channel l.id sg)
  | .write sg data => l.leave (dmaWrite snd p max l.peer l.channel l.id sg data)

def works {σ : Type} (snd : Send) (p : Peer σ) (max : Nat) (l : Lines σ) (acts : List Doing) : Lines σ :=
  acts.foldl (doing snd p max) l

/-! ## What is claimed -/

def Doing.isDma : Doing → Bool
  | .read _ => true
  | .write _ _ => true
  | _ => false

/-- Transfers a client that serves its memory can serve: not empty, within 64 bits of addresses, at most 1 MiB to a message. -/
def Doing.Sane (max : Nat) : Doing → Prop
  | .read sg => 0 < sg.length ∧ sg.dmaAddr + sg.offset + sg.length ≤ U64 ∧ min sg.length max ≤ 1048576
  | .write sg data => 0 < sg.length ∧ sg.dmaAddr + sg.offset + sg.length ≤ U64 ∧ min sg.length max ≤ 1048576 ∧
      data.length = sg.length
  | _ => True

/-- Whenever the device starts a transfer the server has read all that the client has written. -/
def Patient {σ : Type} (snd : Send) (p : Peer σ) (max : Nat) (l : Lines σ) (acts : List Doing) : Prop :=
  ∀ a d b, acts = a ++ d :: b → d.isDma = true → (works snd p max l a).conn.cells = []

/-! ## With a second socket -/

theorem doing_request {σ : Type} (snd : Send) (p : Peer σ) (max : Nat) {d : Doing} (hd : d.isDma = false) (l k : Lines σ)
    (hc : l.conn = k.conn) (hg : l.got = k.got) :
    ((doing snd p max l d).conn = (doing snd p max k d).conn ∧ (doing snd p max l d).got = (doing snd p max k d).got) ∧
    ((doing snd p max l d).second = l.second ∧ (doing snd p max l d).peer = l.peer ∧ (doing snd p max l d).id = l.id ∧
      (doing snd p max l d).done = l.done) := by
  cases d with
  | arrive cells close => exact ⟨⟨by unfold doing; rw [hc], hg⟩, rfl, rfl, rfl, rfl⟩
  | take => exact ⟨⟨by unfold doing; rw [hc], by unfold doing; rw [hc, hg]⟩, rfl, rfl, rfl, rfl⟩
  | read sg => cases hd
  | write sg data => cases hd

theorem leave_second {σ : Type} {l k : Lines σ} {q : List Byte} (hl : l.second = some q) (hk : k.second = some q)
    (hd : l.done = k.done) (x : Xfer σ) :
    ((l.leave x).conn = l.conn ∧ (l.leave x).got = l.got) ∧
    ((l.leave x).second = some x.inq ∧ (k.leave x).second = some x.inq ∧ (l.leave x).peer = (k.leave x).peer ∧
      (l.leave x).id = (k.leave x).id ∧ (l.leave x).done = (k.leave x).done) := by
  unfold Lines.leave
  rw [hl, hk, hd]
  exact ⟨⟨rfl, rfl⟩, rfl, rfl, rfl, rfl, rfl⟩

theorem doing_dma {σ : Type} (snd : Send) (p : Peer σ) (max : Nat) {d : Doing} (hd : d.isDma = true) {l k : Lines σ} {q : List Byte}
    (hl : l.second = some q) (hk : k.second = some q) (hp : l.peer = k.peer) (hi : l.id = k.id) (hn : l.done = k.done) :
    ((doing snd p max l d).conn = l.conn ∧ (doing snd p max l d).got = l.got) ∧
    ∃ q', (doing snd p max l d).second = some q' ∧ (doing snd p max k d).second = some q' ∧
      (doing snd p max l d).peer = (doing snd p max k d).peer ∧ (doing snd p max l d).id = (doing snd p max k d).id ∧
      (doing snd p max l d).done = (doing snd p max k d).done := by
  have hc : l.channel = k.channel := by unfold Lines.channel; rw [hl, hk]
  cases d with
  | arrive cells close => cases hd
  | take => cases hd
  | read sg =>
    unfold doing
    rw [hp, hi, hc]
    obtain ⟨h1, h2⟩ := leave_second hl hk hn (dmaRead snd p max k.peer k.channel k.id sg)
    exact ⟨h1, _, h2⟩
  | write sg data =>
    unfold doing
    rw [hp, hi, hc]
    obtain ⟨h1, h2⟩ := leave_second hl hk hn (dmaWrite snd p max k.peer k.channel k.id sg data)
    exact ⟨h1, _, h2⟩

/-- C103: with a second socket requests and transfers do not get into each other's way, whatever the client answers and in whatever
order things happen.  The requests read are those read if there were no transfers; the transfers come out as if there were no
requests. -/
theorem C103_apart {σ : Type} (snd : Send) (p : Peer σ) (max : Nat) (acts : List Doing) (l : Lines σ) {q : List Byte}
    (hq : l.second = some q) :
    ((works snd p max l acts).got = (works snd p max l (acts.filter fun d => !d.isDma)).got ∧
      (works snd p max l acts).conn = (works snd p max l (acts.filter fun d => !d.isDma)).conn) ∧
    ((works snd p max l acts).done = (works snd p max l (acts.filter Doing.isDma)).done ∧
      (works snd p max l acts).peer = (works snd p max l (acts.filter Doing.isDma)).peer) := by
  have key : ∀ (acts : List Doing) (l k j : Lines σ) (q : List Byte), l.second = some q → j.second = some q →
      l.conn = k.conn → l.got = k.got → l.peer = j.peer → l.id = j.id → l.done = j.done →
      ((works snd p max l acts).got = (works snd p max k (acts.filter fun d => !d.isDma)).got ∧
        (works snd p max l acts).conn = (works snd p max k (acts.filter fun d => !d.isDma)).conn) ∧
      ((works snd p max l acts).done = (works snd p max j (acts.filter Doing.isDma)).done ∧
        (works snd p max l acts).peer = (works snd p max j (acts.filter Doing.isDma)).peer) := by
    intro acts
    induction acts with
    | nil => intro l k j q _ _ h1 h2 h3 _ h5; exact ⟨⟨h2, h1⟩, h5, h3⟩
    | cons d acts ih =>
      intro l k j q hl hj h1 h2 h3 h4 h5
      cases hd : d.isDma with
      | false =>
        obtain ⟨⟨g1, g2⟩, g3, g4, g5, g6⟩ := doing_request snd p max hd l k h1 h2
        have e1 : (d :: acts).filter (fun d => !d.isDma) = d :: acts.filter (fun d => !d.isDma) :=
          List.filter_cons_of_pos (by rw [hd]; rfl)
        have e2 : (d :: acts).filter Doing.isDma = acts.filter Doing.isDma := List.filter_cons_of_neg (by rw [hd]; simp)
        rw [e1, e2]
        exact ih (doing snd p max l d) (doing snd p max k d) j q (g3.trans hl) hj g1 g2 (g4.trans h3) (g5.trans h4) (g6.trans h5)
      | true =>
        obtain ⟨⟨g1, g2⟩, q', g3, g4, g5, g6, g7⟩ := doing_dma snd p max hd hl hj h3 h4 h5
        have e1 : (d :: acts).filter (fun d => !d.isDma) = acts.filter (fun d => !d.isDma) :=
          List.filter_cons_of_neg (by rw [hd]; simp)
        have e2 : (d :: acts).filter Doing.isDma = d :: acts.filter Doing.isDma := List.filter_cons_of_pos hd
        rw [e1, e2]
        exact ih (doing snd p max l d) k (doing snd p max j d) q' g3 g4 (g1.trans h1) (g2.trans h2) g5 g6 g7
  exact key acts l l l q hq hq rfl rfl rfl rfl rfl

/-! ## On one socket, taking turns -/

theorem serve_tidy (snd : Send) (hs : Healthy snd) (max : Nat) (hm : 0 < max) (m : Nat → Byte) (id : Nat) :
    (∀ sg, (Doing.read sg).Sane max → (dmaRead snd serve max m [] id sg).inq = []) ∧
    (∀ sg data, (Doing.write sg data).Sane max → (dmaWrite snd serve max m [] id sg data).inq = []) := by
  refine ⟨fun sg h => ?_, fun sg data h => ?_⟩
  · rw [C52_read snd hs m max hm id sg h.2.1 h.2.2 h.1]
  · cases hw : sg.writeable with
    | false => unfold dmaWrite; rw [if_pos hw]
    | true =>
      have := h.2.2.1
      rw [C52_write snd hs m max hm id sg data h.2.2.2 hw h.2.1 (by simp only [U32]; omega) h.1]

/-- C103: on one socket the same comes out as with two, for a client that serves its memory, as long as the server has read all that
the client has written whenever the device starts a transfer. -/
theorem C103_turns (snd : Send) (hs : Healthy snd) (max : Nat) (hm : 0 < max) (acts : List Doing) (hsane : ∀ d ∈ acts, d.Sane max)
    (l : Lines (Nat → Byte)) (h1 : l.second = none) (hp : Patient snd serve max l acts) :
    works snd serve max l acts = { works snd serve max { l with second := some [] } acts with second := none } := by
  induction acts generalizing l with
  | nil => show l = { l with second := none }; rw [← h1]
  | cons d acts ih =>
    have step : ∀ k : Lines (Nat → Byte), k.second = none →
        doing snd serve max l d = k → doing snd serve max { l with second := some [] } d = { k with second := some [] } →
        works snd serve max l (d :: acts) = { works snd serve max { l with second := some [] } (d :: acts) with second := none } := by
      intro k hk e1 e2
      show works snd serve max (doing snd serve max l d) acts =
        { works snd serve max (doing snd serve max { l with second := some [] } d) acts with second := none }
      rw [e1, e2]
      refine ih (fun x hx => hsane x (List.mem_cons_of_mem _ hx)) k hk ?_
      intro a x b he hx
      have := hp (d :: a) x b (by rw [he]; rfl) hx
      rw [← e1]
      exact this
    have hsd := hsane d List.mem_cons_self
    obtain ⟨t1, t2⟩ := serve_tidy snd hs max hm l.peer l.id
    have tail : ∀ x : Xfer (Nat → Byte), l.conn.cells = [] → x.inq = [] →
        (l.leave x).second = none ∧ ({ l with second := some [] } : Lines (Nat → Byte)).leave x = { l.leave x with second := some [] } := by
      intro x hc hx
      unfold Lines.leave
      rw [h1, hx]
      refine ⟨rfl, ?_⟩
      dsimp only
      have : ({ l.conn with cells := plain [] } : Sock) = l.conn := by
        show ({ l.conn with cells := [] } : Sock) = l.conn
        rw [← hc]
      rw [this]
    have hch : l.conn.cells = [] → l.channel = [] := by
      intro hc
      unfold Lines.channel
      rw [h1, hc]
      rfl
    cases d with
    | arrive cells close => exact step (doing snd serve max l (.arrive cells close)) h1 rfl rfl
    | take => exact step (doing snd serve max l .take) h1 rfl rfl
    | read sg =>
      have hc : l.conn.cells = [] := hp [] _ acts rfl rfl
      obtain ⟨g1, g2⟩ := tail _ hc (t1 sg hsd)
      refine step (l.leave (dmaRead snd serve max l.peer [] l.id sg)) g1 ?_ g2
      show l.leave (dmaRead snd serve max l.peer l.channel l.id sg) = _
      rw [hch hc]
    | write sg data =>
      have hc : l.conn.cells = [] := hp [] _ acts rfl rfl
      obtain ⟨g1, g2⟩ := tail _ hc (t2 sg data hsd)
      refine step (l.leave (dmaWrite snd serve max l.peer [] l.id sg data)) g1 ?_ g2
      show l.leave (dmaWrite snd serve max l.peer l.channel l.id sg data) = _
      rw [hch hc]

/-! ## On one socket, at the same time -/

/-- C103: a request that comes where an answer is expected.  Its header is taken from the stream and lost, whatever the request and
whatever descriptors came with it; all the rest stays. -/
theorem C103_header (m : Msg) (hm : m.Ok) (rest : List Cell) (closed : Bool) (id len : Nat) :
    recvReply { cells := m.cells ++ rest, closed, lim := [] } id len =
      (.error (if m.fds ≠ [] then EFAULT else if m.h.id ≠ id then EPROTO else EINVAL),
        { cells := plain m.body ++ rest, closed, lim := [] }) := by
  obtain ⟨b, bs, hb, hl, hc⟩ := m.cells_split
  have hr := recv_full ((b, m.fds) :: bs.map (fun b => (b, []))) (plain m.body ++ rest) closed HDR (by simp [hl, HDR]) (by decide)
  have hbytes : (((b, m.fds) :: bs.map (fun b => ((b, []) : Cell))).map Prod.fst) = m.h.bytes ++ [] := by
    rw [List.map_cons, map_fst_pair, hb]; simp
  have ht : m.h.type ≠ TYPE_REPLY := by
    have : m.h.type = 0 := hm.type
    rw [this]; decide
  have hr' : ({ cells := m.cells ++ rest, closed, lim := [] } : Sock).recv HDR =
      (.data ((b, m.fds) :: bs.map (fun b => (b, []))), { cells := plain m.body ++ rest, closed, lim := [] }) := by
    rw [hc, List.append_assoc]
    exact hr
  unfold recvReply
  rw [hr']
  dsimp only
  rw [if_neg (by simp [hl, HDR]), cellFds_head, hbytes, Hdr.ofBytes_bytes m.h hm.fits]
  by_cases hf : m.fds ≠ []
  · rw [if_pos hf, if_pos hf]
  rw [if_neg hf, if_neg hf]
  by_cases hi : m.h.id ≠ id
  · rw [if_pos hi, if_pos hi]
  rw [if_neg hi, if_neg hi, if_pos ht]

/-- The error a device sees. -/
def clash (m : Msg) (id : Nat) : Nat := if m.h.id ≠ id then EPROTO else EINVAL

theorem xferErr_clash (m : Msg) (id : Nat) : xferErr (clash m id) = clash m id := by
  unfold clash
  by_cases h : m.h.id ≠ id
  · rw [if_pos h]; rfl
  · rw [if_neg h]; rfl

theorem exchange_clash {σ : Type} (snd : Send) (hs : Healthy snd) (p : Peer σ) (st : σ) (m : Msg) (hm : m.Ok) (hf : m.fds = [])
    (rest : List Byte) (id cmd len : Nat) (data : List Byte) (hd : data.length + 16 < U32) :
    exchange snd p st (m.h.bytes ++ m.body ++ rest) (id % 65536) cmd data len =
      { peer := (p st ((reqHdr id cmd data.length).bytes ++ data)).1
        inq := m.body ++ rest ++ (p st ((reqHdr id cmd data.length).bytes ++ data)).2.getD []
        res := .error (clash m (id % 65536))
        sent := [{ bytes := (reqHdr id cmd data.length).bytes ++ data, fds := [] }] } := by
  generalize hp : p st ((reqHdr id cmd data.length).bytes ++ data) = q
  obtain ⟨st', out⟩ := q
  have hc : m.cells = plain (m.h.bytes ++ m.body) := by
    obtain ⟨b, bs, hb, _, hc⟩ := m.cells_split
    rw [hc, hf, hb]
    simp [plain]
  have hr := C103_header m hm (plain (rest ++ out.getD [])) true (id % 65536) len
  rw [hc, if_neg (by rw [hf]; simp), ← plain_append, ← plain_append] at hr
  have e : m.h.bytes ++ m.body ++ (rest ++ out.getD []) = m.h.bytes ++ m.body ++ rest ++ out.getD [] := (List.append_assoc ..).symm
  rw [e] at hr
  rw [exchange_eq snd hs p st st' _ id cmd len data out _ _ hd hp hr]
  dsimp only
  rw [plain_fst, ← List.append_assoc]
  rfl

/-- C103: on one socket, if a request of the client is there when the device starts a transfer.  The transfer fails at its first
message (`EPROTO`, or `EINVAL` if the two happen to have the same number) and delivers nothing, although the client was asked and has
done what it was asked for.  The request is not read: its header is gone, its payload and behind everything else the client's answer
stay behind for the server to read as requests. -/
theorem C103_clash {σ : Type} (snd : Send) (hs : Healthy snd) (p : Peer σ) (max : Nat) (l : Lines σ) (h1 : l.second = none)
    (m : Msg) (hm : m.Ok) (hf : m.fds = []) (rest : List Byte) (hc : l.conn.cells = plain (m.h.bytes ++ m.body ++ rest))
    (sg : Dma.Sg) (hl : 0 < sg.length) :
    (∃ req, (doing snd p max l (.read sg)).done = l.done ++ [(.err (clash m (l.id % 65536)), [])] ∧
      req = (reqHdr l.id 11 16).bytes ++ access (add64 sg.dmaAddr sg.offset) (min sg.length max) ∧
      (doing snd p max l (.read sg)).peer = (p l.peer req).1 ∧
      (doing snd p max l (.read sg)).conn.cells = plain (m.body ++ rest ++ (p l.peer req).2.getD []) ∧
      (doing snd p max l (.read sg)).got = l.got) ∧
    (∀ data, data.length = sg.length → sg.writeable = true → min sg.length max + 32 < U32 →
      ∃ req, (doing snd p max l (.write sg data)).done = l.done ++ [(.err (clash m (l.id % 65536)), data)] ∧
      req = (reqHdr l.id 12 (16 + min sg.length max)).bytes ++
        (access (add64 sg.dmaAddr sg.offset) (min sg.length max) ++ data.take max) ∧
      (doing snd p max l (.write sg data)).peer = (p l.peer req).1 ∧
      (doing snd p max l (.write sg data)).conn.cells = plain (m.body ++ rest ++ (p l.peer req).2.getD []) ∧
      (doing snd p max l (.write sg data)).got = l.got) := by
  have hch : l.channel = m.h.bytes ++ m.body ++ rest := by
    unfold Lines.channel
    rw [h1, hc]
    exact plain_fst _
  have ha : add64 (add64 sg.dmaAddr sg.offset) 0 = add64 sg.dmaAddr sg.offset := by
    simp only [add64, Nat.add_zero, Nat.mod_mod]
  refine ⟨⟨(reqHdr l.id 11 16).bytes ++ access (add64 sg.dmaAddr sg.offset) (min sg.length max), ?_⟩, fun data hd hw hb =>
    ⟨(reqHdr l.id 12 (16 + min sg.length max)).bytes ++
      (access (add64 sg.dmaAddr sg.offset) (min sg.length max) ++ data.take max), ?_⟩⟩
  · have hal := access_length (add64 sg.dmaAddr sg.offset) (min sg.length max)
    have hx := exchange_clash snd hs p l.peer m hm hf rest l.id 11 (min sg.length max + 16)
      (access (add64 sg.dmaAddr sg.offset) (min sg.length max)) (by rw [hal]; decide)
    rw [hal] at hx
    have hr : ∃ i s, dmaRead snd p max l.peer l.channel l.id sg =
        { peer := (p l.peer ((reqHdr l.id 11 16).bytes ++ access (add64 sg.dmaAddr sg.offset) (min sg.length max))).1
          inq := m.body ++ rest ++
            (p l.peer ((reqHdr l.id 11 16).bytes ++ access (add64 sg.dmaAddr sg.offset) (min sg.length max))).2.getD []
          id := i, data := [], res := .err (clash m (l.id % 65536)), sent := s } := by
      unfold dmaRead readLoop
      rw [if_neg (show ¬ sg.length = 0 by omega)]
      dsimp only
      rw [ha, show CMD_DMA_READ = 11 from rfl, hch, hx]
      dsimp only
      rw [xferErr_clash]
      exact ⟨_, _, rfl⟩
    obtain ⟨i, s, hr⟩ := hr
    unfold doing
    dsimp only
    rw [hr]
    unfold Lines.leave
    rw [h1]
    exact ⟨rfl, rfl, rfl, rfl, rfl⟩
  · have ht : (data.drop 0).take (min sg.length max) = data.take max := by
      rw [List.drop_zero, ← hd]
      rcases Nat.le_total data.length max with h | h
      · rw [Nat.min_eq_left h, List.take_length, List.take_of_length_le h]
      · rw [Nat.min_eq_right h]
    have hal : (access (add64 sg.dmaAddr sg.offset) (min sg.length max) ++ data.take max).length = 16 + min sg.length max := by
      rw [List.length_append, access_length, List.length_take, hd]
      omega
    have hx := exchange_clash snd hs p l.peer m hm hf rest l.id 12 16
      (access (add64 sg.dmaAddr sg.offset) (min sg.length max) ++ data.take max) (by rw [hal]; omega)
    rw [hal] at hx
    have hr : ∃ i s, dmaWrite snd p max l.peer l.channel l.id sg data =
        { peer := (p l.peer ((reqHdr l.id 12 (16 + min sg.length max)).bytes ++
            (access (add64 sg.dmaAddr sg.offset) (min sg.length max) ++ data.take max))).1
          inq := m.body ++ rest ++ (p l.peer ((reqHdr l.id 12 (16 + min sg.length max)).bytes ++
            (access (add64 sg.dmaAddr sg.offset) (min sg.length max) ++ data.take max))).2.getD []
          id := i, data := data, res := .err (clash m (l.id % 65536)), sent := s } := by
      unfold dmaWrite
      rw [if_neg (show ¬ sg.writeable = false by rw [hw]; simp)]
      unfold writeLoop
      rw [if_neg (show ¬ sg.length = 0 by omega)]
      dsimp only
      rw [ha, show CMD_DMA_WRITE = 12 from rfl, hch, ht, hx]
      dsimp only
      rw [xferErr_clash]
      exact ⟨_, _, rfl⟩
    obtain ⟨i, s, hr⟩ := hr
    unfold doing
    dsimp only
    rw [hr]
    unfold Lines.leave
    rw [h1]
    exact ⟨rfl, rfl, rfl, rfl, rfl⟩

/-! ## Cases -/

/-- A client writes 16 bytes to offset 0 of region 0; they look like a device reset. -/
def innocent : Msg :=
  { h := { id := 5, cmd := 10, size := 48, flags := 0, err := 0 }
    body := enc 8 0 ++ enc 4 0 ++ enc 4 16 ++ ({ id := 9, cmd := 13, size := 16, flags := 0, err := 0 } : Hdr).bytes
    fds := [] }

theorem innocent_ok : innocent.Ok :=
  ⟨⟨by decide, by decide, by decide, by decide, by decide⟩, by decide, by decide, by decide, .inl (by decide), by decide⟩

/-- Five bytes at 0x1002. -/
def five : Dma.Sg := { dmaAddr := 0x1000, region := 0, length := 5, offset := 2, writeable := true }

/-- A client connected by one socket or by two. -/
def linked (second : Option (List Byte)) : Lines (Nat → Byte) :=
  { conn := ⟨[], false, []⟩, second, peer := fun i => BitVec.ofNat 8 i, id := 1, got := [], done := [] }

/-- C103: what can become of it.  The client writes to a region while the device reads five bytes of its memory.  With two sockets
both happen.  On one the read fails, the write does not take place, and the bytes that were to be written reset the device. -/
theorem C103_reset :
    ((works (fun n => .ok n) serve 4096 (linked (some [])) [.arrive innocent.cells false, .read five, .take]).got =
        [.req innocent.h innocent.body []] ∧
      (works (fun n => .ok n) serve 4096 (linked (some [])) [.arrive innocent.cells false, .read five, .take]).done =
        [(.ok (), [2, 3, 4, 5, 6])]) ∧
    ((works (fun n => .ok n) serve 4096 (linked none) [.arrive innocent.cells false, .read five, .take, .take, .take]).got =
        [.bad ⟨0, 0, 0, 0, 16⟩ [] EINVAL, .req ⟨9, 13, 16, 0, 0⟩ [] [], .bad ⟨1, 11, 37, 1, 0⟩ [] EINVAL] ∧
      (works (fun n => .ok n) serve 4096 (linked none) [.arrive innocent.cells false, .read five, .take, .take, .take]).done =
        [(.err EPROTO, [])]) := by
  decide +kernel

/-- If the server reads the request first, one socket is as good as two. -/
example : (works (fun n => .ok n) serve 4096 (linked none) [.arrive innocent.cells false, .take, .read five]).got =
      [.req innocent.h innocent.body []] ∧
    (works (fun n => .ok n) serve 4096 (linked none) [.arrive innocent.cells false, .take, .read five]).done =
      [(.ok (), [2, 3, 4, 5, 6])] := by
  have h := C103_turns (fun n => .ok n) (fun _ => rfl) 4096 (by decide) [.arrive innocent.cells false, .take, .read five]
    (by
      intro d hd
      simp only [List.mem_cons, List.not_mem_nil, or_false] at hd
      rcases hd with rfl | rfl | rfl
      · exact trivial
      · exact trivial
      · exact ⟨by decide, by decide, by decide⟩) (linked none) rfl
    (by
      intro a d b he hd
      match a, he with
      | [], he => cases he; cases hd
      | [_], he => cases he; cases hd
      | [_, _], he => cases he; decide +kernel
      | _ :: _ :: _ :: a, he => cases a <;> cases he)
  rw [h]
  decide +kernel

/-- The hypotheses of `C103_clash` are met in between. -/
example : (doing (fun n => .ok n) serve 4096 (doing (fun n => .ok n) serve 4096 (linked none) (.arrive innocent.cells false))
      (.write five [9, 8, 7, 6, 5])).done = [(.err EPROTO, [9, 8, 7, 6, 5])] ∧
    (doing (fun n => .ok n) serve 4096 (doing (fun n => .ok n) serve 4096 (linked none) (.arrive innocent.cells false))
      (.write five [9, 8, 7, 6, 5])).peer 0x1004 = 7 := by
  obtain ⟨req, h1, h2, h3, _⟩ := (C103_clash (fun n => .ok n) (fun _ => rfl) serve 4096
    (doing (fun n => .ok n) serve 4096 (linked none) (.arrive innocent.cells false)) rfl innocent innocent_ok rfl [] (by decide +kernel)
    five (by decide)).2 [9, 8, 7, 6, 5] rfl rfl (by decide)
  refine ⟨h1, ?_⟩
  rw [h3, h2]
  decide +kernel

end Verif.Wire
