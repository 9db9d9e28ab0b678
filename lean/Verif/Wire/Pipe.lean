import Verif.Wire.Frame

/-!
# The pipe transport (`lib/tran_pipe.c`)

Requests arrive on standard input, replies leave on standard output; descriptors cannot travel.  C81: requests are framed as on
the socket.  C82: what is sent carries everything but its size. -/

namespace Verif.Wire
open Verif
open Verif.Dma (Fd)

/-! ## Receiving -/

/-- The incoming pipe.  `lim`: upper bounds on what the next `read` calls return, as for `Sock`. -/
structure Pipe where
  bytes : List Byte
  closed : Bool
  lim : List Nat
  deriving DecidableEq, Repr

namespace Pipe

/-- The same bytes on a socket, without descriptors. -/
def sock (p : Pipe) : Sock := { cells := p.bytes.map fun b => (b, []), closed := p.closed, lim := p.lim }

/-- Number of bytes the next `read` of at most `len` bytes delivers when there are some. -/
def amount (p : Pipe) (len : Nat) : Nat :=
  min (min len p.bytes.length) (match p.lim with | [] => len | l :: _ => max l 1)

/-- One `read` of at most `len > 0` bytes: an `errno`, or the bytes; no bytes is the end of the stream. -/
def read (p : Pipe) (len : Nat) : Except Nat (List Byte) × Pipe :=
  if p.bytes = [] then (if p.closed then .ok [] else .error EAGAIN, p)
  else (.ok (p.bytes.take (p.amount len)), { p with bytes := p.bytes.drop (p.amount len), lim := p.lim.tail })

/-- `lib/tran_pipe.c:94-110` `tran_pipe_get_msg`. -/
def getMsg (p : Pipe) (len : Nat) : Except Nat (List Byte) × Pipe :=
  match p.read len with
  | (.error e, p') => (.error e, p')
  | (.ok l, p') =>
    if l.length = 0 then (.error ENOMSG, p')
    else if l.length < len then (.error ECONNRESET, p')
    else (.ok l, p')

/-- `lib/tran_pipe.c:300-314` `tran_pipe_get_request_header` with `lib/libvfio-user.c:1401-1443`. -/
def getHeader (p : Pipe) : Except In Hdr × Pipe :=
  match p.getMsg HDR with
  | (.ok l, p') => (.ok (Hdr.ofBytes l), p')
  | (.error e, p') =>
    (.error (if e = EAGAIN then .again else if e = ENOMSG ∨ e = ECONNRESET then .lost e [] else .failed e []), p')

/-- `lib/tran_pipe.c:316-356` `tran_pipe_recv_body`; the buffer is allocated. -/
def recvBody (p : Pipe) (len : Nat) : Except Nat (List Byte) × Pipe :=
  match p.read len with
  | (.error e, p') => (.error e, p')
  | (.ok l, p') =>
    if l.length = 0 then (.error ENOMSG, p')
    else if l.length ≠ len then (.error EINVAL, p')
    else (.ok l, p')

/-- `lib/libvfio-user.c:1580-1602`: the part of `get_request` that reads the message. -/
def next (p : Pipe) : In × Pipe :=
  match p.getHeader with
  | (.error i, p1) => (i, p1)
  | (.ok h, p1) =>
    if validHeader h = false then (.bad h [] EINVAL, p1)
    else if h.size - HDR > 0 then
      match p1.recvBody (h.size - HDR) with
      | (.error e, p2) => (.bad h [] e, p2)
      | (.ok body, p2) => (.req h body [], p2)
    else (.req h [] [], p1)

/-- The first `n` reads. -/
def reads : Nat → Pipe → List In
  | 0, _ => []
  | n + 1, p => p.next.1 :: reads n p.next.2

/-- The pipe after `n` reads. -/
def after : Nat → Pipe → Pipe
  | 0, p => p
  | n + 1, p => after n p.next.2

/-- `lib/tran_pipe.c:117-171` `tran_pipe_recv` for a reply.  `none` as data: the buffer of the caller is left as it was.
Unlike on the socket, the payload must arrive in one piece. -/
def recvReply (p : Pipe) (id len : Nat) : Except Nat (Option (List Byte)) × Pipe :=
  match p.getMsg HDR with
  | (.error e, p1) => (.error e, p1)
  | (.ok l, p1) =>
    let h := Hdr.ofBytes l
    if h.id ≠ id then (.error EPROTO, p1)
    else if h.type ≠ TYPE_REPLY then (.error EINVAL, p1)
    else if h.error then (.error (if h.err = 0 ∨ h.err > MAX_ERROR_NO then EINVAL else h.err), p1)
    else if h.size < HDR ∨ h.size > MAX_MSG then (.error EINVAL, p1)
    else if len > 0 ∧ h.size > HDR then
      match p1.read (min (h.size - HDR) len) with
      | (.error e, p2) => (.error e, p2)
      | (.ok l, p2) =>
        if l.length = 0 then (.error ENOMSG, p2)
        else if l.length ≠ len then (.error ECONNRESET, p2)
        else (.ok (some l), p2)
    else (.ok none, p1)

/-- `lib/tran_pipe.c:176-223,358-376` `tran_pipe_recv_alloc`, `tran_pipe_recv_msg`: the version request.  The buffer is
allocated. -/
def recvMsg (p : Pipe) : Except Nat (Hdr × List Byte) × Pipe :=
  match p.getMsg HDR with
  | (.error e, p1) => (.error e, p1)
  | (.ok l, p1) =>
    let h := Hdr.ofBytes l
    if h.type ≠ TYPE_COMMAND then (.error EINVAL, p1)
    else if h.size < HDR ∨ h.size > MAX_MSG then (.error EINVAL, p1)
    else if h.size = HDR then (.ok (h, []), p1)
    else
      match p1.read (h.size - HDR) with
      | (.error e, p2) => (.error e, p2)
      | (.ok l, p2) =>
        if l.length = 0 then (.error ENOMSG, p2)
        else if l.length ≠ h.size - HDR then (.error ECONNRESET, p2)
        else (.ok (h, l), p2)

/-! ## Sending -/

/-- The header built by `lib/tran_pipe.c:47-70`: `msg_size` is never assigned. -/
def mkHdr (id cmd : Nat) (isReply : Bool) (err : Nat) : Hdr :=
  { id := id, cmd := cmd, size := 0,
    flags := if isReply then (if err ≠ 0 then TYPE_REPLY + F_ERROR else TYPE_REPLY) else TYPE_COMMAND,
    err := if isReply ∧ err ≠ 0 then err else 0 }

/-- `lib/tran_pipe.c:47-92` `tran_pipe_send_iovec`.  The number of bytes `writev` took is compared with `msg_size`. -/
def sendIovec (snd : Send) (id cmd : Nat) (isReply : Bool) (body : Body) (err : Nat) : Except Nat Unit × List (List Byte) :=
  match body with
  | .null (_ + 1) => (.error EFAULT, [])
  | .null 0 => go (mkHdr id cmd isReply err) []
  | .bytes l => go (mkHdr id cmd isReply err) l
where
  go (h : Hdr) (l : List Byte) : Except Nat Unit × List (List Byte) :=
    match snd (h.bytes ++ l).length with
    | .error e => (.error (if e = EPIPE then ECONNRESET else e), [])
    | .ok n => (if n < h.size then .error ECONNRESET else .ok (), [(h.bytes ++ l).take n])

/-- `lib/tran_pipe.c:378-414` `tran_pipe_reply`; the descriptors of the reply are not looked at. -/
def reply (snd : Send) (h : Hdr) (body : Body) (err : Nat) : Except Nat Unit × List (List Byte) :=
  sendIovec snd h.id h.cmd true body err

/-- `lib/tran_pipe.c:229-245,416-439` `tran_pipe_send_msg` as far as the request. -/
def command (snd : Send) (id cmd : Nat) (data : List Byte) : Except Nat Unit × List (List Byte) :=
  sendIovec snd id cmd false (.bytes data) 0

/-! ## C81: the same requests -/

theorem sock_recv (p : Pipe) {len : Nat} :
    p.sock.recv len = (match (p.read len).1 with
      | .error _ => .again
      | .ok l => if l.length = 0 ∧ p.bytes = [] then .eof else .data (l.map fun b => (b, [])), (p.read len).2.sock) := by
  unfold Sock.recv read
  by_cases hb : p.bytes = []
  · have h1 : p.sock.cells = [] := by unfold sock; rw [hb]; rfl
    rw [if_pos h1, if_pos hb]
    have hc : p.sock.closed = p.closed := rfl
    rw [hc]
    cases p.closed <;> simp [hb]
  · have h1 : ¬ p.sock.cells = [] := by unfold sock; simpa using hb
    have ha : p.sock.amount len = p.amount len := by
      unfold Sock.amount amount sock
      dsimp only
      rw [List.length_map]
      rfl
    rw [if_neg h1, if_neg hb, ha]
    simp only [hb, and_false, if_false]
    unfold Sock.advance sock
    simp [List.map_take, List.map_drop]

theorem read_nonempty {p p' : Pipe} {len : Nat} {l : List Byte} (hl : 0 < len) (h : p.read len = (.ok l, p'))
    (hb : p.bytes ≠ []) : l.length ≠ 0 := by
  unfold read at h
  rw [if_neg hb] at h
  cases h
  have : 0 < p.bytes.length := List.length_pos_iff.mpr hb
  have ha : 0 < p.amount len := by
    unfold amount
    cases p.lim with
    | nil => dsimp only; omega
    | cons a t => dsimp only; omega
  rw [List.length_take]
  omega

theorem read_empty {p p' : Pipe} {len : Nat} {l : List Byte} (h : p.read len = (.ok l, p')) (hb : p.bytes = []) : l = [] := by
  unfold read at h
  rw [if_pos hb] at h
  split at h
  · cases h; rfl
  · cases h

theorem read_error {p p' : Pipe} {len e : Nat} (h : p.read len = (.error e, p')) : e = EAGAIN := by
  unfold read at h
  split at h
  · split at h
    · cases h
    · cases h; rfl
  · cases h

theorem cellFds_none (l : List Byte) : cellFds (l.map fun b => ((b, []) : Cell)) = [] := by
  cases l with
  | nil => rfl
  | cons b bs => exact cellFds_head b [] bs

theorem getHeader_sock (p : Pipe) :
    Wire.getHeader p.sock = ((p.getHeader).1.map fun h => (h, []), (p.getHeader).2.sock) := by
  unfold Wire.getHeader getHeader getMsg
  rw [sock_recv]
  rcases hr : p.read HDR with ⟨_ | l, p'⟩
  · cases read_error hr
    rfl
  · dsimp only
    by_cases hb : p.bytes = []
    · cases read_empty hr hb
      simp only [hb, List.length_nil, and_self, if_true]
      rfl
    · have hn := read_nonempty (by decide) hr hb
      rw [if_neg (fun h => hb h.2), if_neg hn]
      dsimp only
      rw [cellFds_none, List.length_map]
      by_cases hl : l.length < HDR
      · rw [if_pos hl, if_pos hl]
        rfl
      · rw [if_neg hl, if_neg hl, if_neg (by decide), map_fst_pair]
        rfl

theorem recvBody_sock (p : Pipe) {len : Nat} (hlen : 0 < len) :
    Wire.recvBody p.sock len = ((p.recvBody len).1, (p.recvBody len).2.sock) := by
  unfold Wire.recvBody recvBody
  rw [sock_recv]
  rcases hr : p.read len with ⟨_ | l, p'⟩
  · cases read_error hr
    rfl
  · dsimp only
    by_cases hb : p.bytes = []
    · cases read_empty hr hb
      simp only [hb, List.length_nil, and_self, if_true]
    · have hn := read_nonempty hlen hr hb
      rw [if_neg (fun h => hb h.2), if_neg hn]
      dsimp only
      rw [List.length_map, map_fst_pair]
      by_cases hl : l.length ≠ len
      · rw [if_pos hl, if_pos hl]
      · rw [if_neg hl, if_neg hl]

theorem next_sock (p : Pipe) : Wire.next p.sock = (p.next.1, p.next.2.sock) := by
  unfold Wire.next next
  rw [getHeader_sock]
  rcases p.getHeader with ⟨i | h, p1⟩
  · rfl
  · dsimp only [Except.map]
    by_cases hv : validHeader h = false
    · rw [if_pos hv, if_pos hv]
    rw [if_neg hv, if_neg hv]
    by_cases hz : h.size - HDR > 0
    · rw [if_pos hz, if_pos hz, recvBody_sock p1 hz]
      rcases p1.recvBody (h.size - HDR) with ⟨e | b, p2⟩ <;> rfl
    · rw [if_neg hz, if_neg hz]

/-- C81: whatever the bytes and however they are delivered, a server on a pipe reads what it would read on a socket. -/
theorem C81_same (n : Nat) (p : Pipe) : p.reads n = Wire.reads n p.sock ∧ (p.after n).sock = Wire.after n p.sock := by
  induction n generalizing p with
  | zero => exact ⟨rfl, rfl⟩
  | succ n ih =>
    obtain ⟨i1, i2⟩ := ih p.next.2
    constructor
    · show p.next.1 :: reads n p.next.2 = (Wire.next p.sock).1 :: Wire.reads n (Wire.next p.sock).2
      rw [next_sock, i1]
    · show (after n p.next.2).sock = Wire.after n (Wire.next p.sock).2
      rw [next_sock, i2]

theorem sock_inj {p q : Pipe} (h : p.sock = q.sock) : p = q := by
  obtain ⟨a, b, c⟩ := p
  obtain ⟨a', b', c'⟩ := q
  unfold sock at h
  simp only [Sock.mk.injEq] at h
  obtain ⟨h1, rfl, rfl⟩ := h
  have := congrArg (List.map Prod.fst) h1
  rw [map_fst_pair, map_fst_pair] at this
  rw [this]

theorem cells_plain {m : Msg} (h : m.fds = []) : m.cells = (m.h.bytes ++ m.body).map fun b => (b, []) := by
  obtain ⟨b, bs, hb, _, hc⟩ := m.cells_split
  rw [hc, hb, h]
  simp

/-- C81: on a stream of well-formed requests the server reads exactly those, and then stands at what follows. -/
theorem C81_frames (ms : List Msg) (hms : ∀ m ∈ ms, m.Ok) (hf : ∀ m ∈ ms, m.fds = []) (rest : List Byte) (closed : Bool) :
    let p : Pipe := { bytes := ms.flatMap (fun m => m.h.bytes ++ m.body) ++ rest, closed, lim := [] }
    p.reads ms.length = ms.map (fun m => .req m.h m.body []) ∧ p.after ms.length = { bytes := rest, closed, lim := [] } := by
  intro p
  have hp : p.sock = { cells := ms.flatMap Msg.cells ++ rest.map (fun b => (b, [])), closed, lim := [] } := by
    show ({ cells := _, closed := _, lim := _ } : Sock) = _
    congr 1
    rw [List.map_append, List.map_flatMap]
    congr 1
    clear hms
    induction ms with
    | nil => rfl
    | cons m ms ih =>
      rw [List.flatMap_cons, List.flatMap_cons, ih fun x hx => hf x (List.mem_cons_of_mem _ hx),
        cells_plain (hf m List.mem_cons_self)]
  obtain ⟨c1, c2⟩ := C81_same ms.length p
  obtain ⟨f1, f2⟩ := C48_frames ms hms (rest.map fun b => (b, [])) closed
  rw [hp] at c1 c2
  refine ⟨?_, sock_inj (c2.trans f2)⟩
  rw [c1, f1]
  refine List.map_congr_left fun m hm => ?_
  rw [hf m hm]

/-! ## C82: what is sent -/

theorem mkHdr_fits (id cmd : Nat) (r : Bool) (err : Nat) (h1 : id < 65536) (h2 : cmd < 65536) (h3 : err < U32) :
    (mkHdr id cmd r err).Fits where
  id := h1
  cmd := h2
  size := by show 0 < U32; decide
  flags := (Wire.mkHdr_fits id cmd r 0 err h1 h2 h3).flags
  err := (Wire.mkHdr_fits id cmd r 0 err h1 h2 h3).err

/-- C82: a reply is the reply the socket would carry, with zeros for its size, and the call reports success. -/
theorem C82_reply (snd : Send) (hs : Healthy snd) (req : Hdr) (hr : req.Fits) (err : Nat) (he : err < U32) (body : List Byte)
    (hb : body.length + 16 < U32) :
    ∃ w, reply snd req (.bytes body) err = (.ok (), [w.take 4 ++ List.replicate 4 0#8 ++ w.drop 8]) ∧ IsReply req err body w := by
  obtain ⟨w, h1, h2⟩ := C49_reply snd hs req hr err he body hb []
  refine ⟨w, ?_, h2⟩
  have hw : w = (Wire.mkHdr req.id req.cmd true body.length err).bytes ++ body := by
    unfold Wire.reply Wire.sendIovec at h1
    dsimp only [Body.len] at h1
    unfold Wire.sendIovec.go at h1
    rw [if_neg (by simp)] at h1
    dsimp only at h1
    rw [hs] at h1
    dsimp only at h1
    have := congrArg (fun x => (x.2.map Sent.bytes)) h1
    dsimp only [List.map_cons] at this
    rw [List.take_length] at this
    exact (List.cons.inj this).1.symm
  unfold reply sendIovec
  dsimp only
  unfold sendIovec.go
  rw [hs]
  dsimp only
  rw [if_neg (by show ¬ _ < 0; omega), List.take_length, hw]
  congr 2
  have e : ∀ (a b c d f g : List Byte), a.length = 2 → b.length = 2 → c.length = 4 →
      (a ++ b ++ c ++ d ++ f ++ g).take 4 = a ++ b ∧ (a ++ b ++ c ++ d ++ f ++ g).drop 8 = d ++ f ++ g := by
    intro a b c d f g ha hb hc
    constructor
    · simp only [List.append_assoc]
      rw [← List.append_assoc a b, List.take_append_of_le_length (by simp; omega), List.take_of_length_le (by simp; omega)]
    · simp only [List.append_assoc]
      rw [← List.append_assoc a b, ← List.append_assoc (a ++ b) c, List.drop_append_of_le_length (by simp; omega),
        List.drop_of_length_le (by simp; omega), List.nil_append]
  obtain ⟨e1, e2⟩ := e (enc 2 req.id) (enc 2 req.cmd) (enc 4 (Wire.mkHdr req.id req.cmd true body.length err).size)
    (enc 4 (Wire.mkHdr req.id req.cmd true body.length err).flags) (enc 4 (Wire.mkHdr req.id req.cmd true body.length err).err) body
    (enc_length _ _) (enc_length _ _) (enc_length _ _)
  unfold Hdr.bytes
  rw [show (Wire.mkHdr req.id req.cmd true body.length err).id = req.id from rfl,
    show (Wire.mkHdr req.id req.cmd true body.length err).cmd = req.cmd from rfl, e1, e2]
  simp [mkHdr, Wire.mkHdr, enc]

/-- C82: the call reports success however few bytes the pipe took. -/
theorem C82_short (snd : Send) (req : Hdr) (err : Nat) (body : List Byte) {k : Nat} (hk : snd (16 + body.length) = .ok k) :
    reply snd req (.bytes body) err = (.ok (), [((mkHdr req.id req.cmd true err).bytes ++ body).take k]) := by
  unfold reply sendIovec
  dsimp only
  unfold sendIovec.go
  rw [List.length_append, Hdr.bytes_length, hk]
  dsimp only
  rw [if_neg (by show ¬ k < 0; omega)]

/-- What is read is the front of the stream. -/
theorem read_front {a b : List Byte} {closed : Bool} {lim : List Nat} {len : Nat} (ha : a ≠ [])
    (h : amount { bytes := a ++ b, closed, lim } len = a.length) :
    read { bytes := a ++ b, closed, lim } len = (.ok a, { bytes := b, closed, lim := lim.tail }) := by
  have hne : a ++ b ≠ [] := by simp [ha]
  unfold read
  rw [if_neg hne, h]
  dsimp only
  rw [List.take_left, List.drop_left]

theorem bytes_ne (h : Hdr) : h.bytes ≠ [] := by
  intro e
  have := h.bytes_length
  rw [e] at this
  cases this

/-- A whole header at the front of the pipe. -/
theorem getMsg_hdr' (h : Hdr) (rest : List Byte) (closed : Bool) {lim : List Nat} (hl : ∀ n ∈ lim.head?, 16 ≤ n) :
    getMsg { bytes := h.bytes ++ rest, closed, lim } HDR = (.ok h.bytes, { bytes := rest, closed, lim := lim.tail }) := by
  have hb := h.bytes_length
  have ha : amount { bytes := h.bytes ++ rest, closed, lim } HDR = h.bytes.length := by
    unfold amount
    dsimp only
    rw [List.length_append, hb, show HDR = 16 from rfl]
    cases lim with
    | nil => dsimp only; omega
    | cons n l => have := hl n rfl; dsimp only; omega
  unfold getMsg
  rw [read_front (bytes_ne h) ha]
  dsimp only
  rw [if_neg (by omega), if_neg (by rw [hb]; decide)]

theorem getMsg_hdr (h : Hdr) (rest : List Byte) (closed : Bool) :
    getMsg { bytes := h.bytes ++ rest, closed, lim := [] } HDR = (.ok h.bytes, { bytes := rest, closed, lim := [] }) :=
  getMsg_hdr' h rest closed (fun _ h => by cases h)

/-- C82: the library's own receiver takes no reply from this transport unless it is an error: the size is too small. -/
theorem C82_refused (snd : Send) (hs : Healthy snd) (req : Hdr) (hr : req.Fits) (body rest : List Byte) (closed : Bool) (len : Nat) :
    ∃ w, reply snd req (.bytes body) 0 = (.ok (), [w]) ∧
      recvReply { bytes := w ++ rest, closed, lim := [] } req.id len = (.error EINVAL, { bytes := body ++ rest, closed, lim := [] }) := by
  refine ⟨(mkHdr req.id req.cmd true 0).bytes ++ body, ?_, ?_⟩
  · rw [C82_short snd req 0 body (hs _), List.take_of_length_le (by rw [List.length_append, Hdr.bytes_length]; omega)]
  · have ho : Hdr.ofBytes (mkHdr req.id req.cmd true 0).bytes = mkHdr req.id req.cmd true 0 := by
      have := Hdr.ofBytes_bytes _ (mkHdr_fits req.id req.cmd true 0 hr.id hr.cmd (by decide)) []
      rwa [List.append_nil] at this
    unfold recvReply
    rw [List.append_assoc, getMsg_hdr]
    dsimp only
    rw [ho, if_neg (show ¬ (mkHdr req.id req.cmd true 0).id ≠ req.id from fun h => h rfl),
      if_neg (show ¬ (mkHdr req.id req.cmd true 0).type ≠ TYPE_REPLY from fun h => h rfl),
      if_neg (show ¬ (mkHdr req.id req.cmd true 0).error = true from (by decide : ¬ TYPE_REPLY.testBit 5 = true)),
      if_pos (.inl (show (mkHdr req.id req.cmd true 0).size < HDR from (by decide : 0 < HDR)))]

/-- C82: an error reaches the peer. -/
theorem C82_error (snd : Send) (hs : Healthy snd) (req : Hdr) (hr : req.Fits) (body rest : List Byte) (closed : Bool) (len : Nat)
    {err : Nat} (h0 : err ≠ 0) (h1 : err ≤ 4096) :
    ∃ w, reply snd req (.bytes body) err = (.ok (), [w]) ∧
      recvReply { bytes := w ++ rest, closed, lim := [] } req.id len = (.error err, { bytes := body ++ rest, closed, lim := [] }) := by
  have hU : err < U32 := Nat.lt_of_le_of_lt h1 (by decide)
  refine ⟨(mkHdr req.id req.cmd true err).bytes ++ body, ?_, ?_⟩
  · rw [C82_short snd req err body (hs _), List.take_of_length_le (by rw [List.length_append, Hdr.bytes_length]; omega)]
  · have ho : Hdr.ofBytes (mkHdr req.id req.cmd true err).bytes = mkHdr req.id req.cmd true err := by
      have := Hdr.ofBytes_bytes _ (mkHdr_fits req.id req.cmd true err hr.id hr.cmd hU) []
      rwa [List.append_nil] at this
    have hfl : (mkHdr req.id req.cmd true err).flags = TYPE_REPLY + F_ERROR := by simp [mkHdr, h0]
    have her : (mkHdr req.id req.cmd true err).err = err := by simp [mkHdr, h0]
    unfold recvReply
    rw [List.append_assoc, getMsg_hdr]
    dsimp only
    rw [ho, if_neg (show ¬ (mkHdr req.id req.cmd true err).id ≠ req.id from fun h => h rfl),
      if_neg (show ¬ (mkHdr req.id req.cmd true err).type ≠ TYPE_REPLY by unfold Hdr.type; rw [hfl]; decide),
      if_pos (show (mkHdr req.id req.cmd true err).error = true by unfold Hdr.error; rw [hfl]; decide), her, if_neg]
    rintro (h | h)
    · exact h0 h
    · exact absurd h1 (by unfold MAX_ERROR_NO at h; omega)

/-- C82: nor is a command of this transport taken by a server running this library. -/
theorem C82_command (snd : Send) (hs : Healthy snd) (id cmd : Nat) (h1 : id < 65536) (h2 : cmd < 65536) (data rest : List Byte)
    (closed : Bool) :
    ∃ w h, command snd id cmd data = (.ok (), [w]) ∧
      next { bytes := w ++ rest, closed, lim := [] } = (.bad h [] EINVAL, { bytes := data ++ rest, closed, lim := [] }) := by
  refine ⟨(mkHdr id cmd false 0).bytes ++ data, mkHdr id cmd false 0, ?_, ?_⟩
  · unfold command sendIovec
    dsimp only
    unfold sendIovec.go
    rw [hs]
    dsimp only
    rw [if_neg (by show ¬ _ < 0; omega), List.take_length]
  · have ho : Hdr.ofBytes (mkHdr id cmd false 0).bytes = mkHdr id cmd false 0 := by
      have := Hdr.ofBytes_bytes _ (mkHdr_fits id cmd false 0 h1 h2 (by decide)) []
      rwa [List.append_nil] at this
    unfold next getHeader
    rw [List.append_assoc, getMsg_hdr]
    dsimp only
    rw [ho, if_pos]
    unfold validHeader
    rw [if_neg (show ¬ (mkHdr id cmd false 0).type ≠ TYPE_COMMAND from fun h => h rfl),
      if_pos (show (mkHdr id cmd false 0).size < HDR from (by decide : 0 < HDR))]

/-! ## The version request -/

/-- The socket waits for the whole message. -/
theorem sock_recvMsg (m : Msg) (hm : m.Ok) (hne : m.body ≠ []) (rest : List Byte) (closed : Bool) {lim : List Nat}
    (hl : ∀ n ∈ lim.head?, 16 ≤ n) :
    (Wire.recvMsg (sock { bytes := m.h.bytes ++ (m.body ++ rest), closed, lim })).1 = .ok (m.h, m.body) := by
  have hb := m.h.bytes_length
  have ho : Hdr.ofBytes m.h.bytes = m.h := by
    have := Hdr.ofBytes_bytes _ hm.fits []
    rwa [List.append_nil] at this
  have ha : amount { bytes := m.h.bytes ++ (m.body ++ rest), closed, lim } HDR = m.h.bytes.length := by
    unfold amount
    dsimp only
    rw [List.length_append, hb, show HDR = 16 from rfl]
    cases lim with
    | nil => dsimp only; omega
    | cons n l => have := hl n rfl; dsimp only; omega
  have hpos : 0 < m.body.length := List.length_pos_iff.mpr hne
  have hs : m.h.size - HDR = m.body.length := by rw [hm.size]; simp [HDR]
  unfold Wire.recvMsg
  rw [sock_recv, read_front (bytes_ne _) ha]
  dsimp only
  rw [if_neg (by rw [hb]; simp)]
  dsimp only
  rw [List.length_map, if_neg (by rw [hb]; decide), cellFds_none, if_neg (by simp), map_fst_pair, ho,
    if_neg (show ¬ m.h.type ≠ TYPE_COMMAND from fun h => h hm.type),
    if_neg (by rw [hm.size]; have := hm.max; unfold HDR MAX_MSG Region.MAX_XFER; omega),
    if_neg (by rw [hm.size]; unfold HDR; omega), hs]
  have hr := recv_full (m.body.map fun b => (b, [])) (rest.map fun b => (b, [])) closed m.body.length (by simp) hpos
  rw [← List.map_append] at hr
  have : ({ sock { bytes := m.body ++ rest, closed, lim := lim.tail } with lim := [] } : Sock) =
      { cells := (m.body ++ rest).map fun b => (b, []), closed, lim := [] } := rfl
  rw [this, hr]
  dsimp only
  rw [List.length_map, if_neg (by simp), map_fst_pair]

/-- The pipe takes what is there. -/
theorem pipe_recvMsg (m : Msg) (hm : m.Ok) (hne : m.body ≠ []) (rest : List Byte) (closed : Bool) {lim : List Nat}
    (hl : ∀ n ∈ lim.head?, 16 ≤ n) :
    recvMsg { bytes := m.h.bytes ++ (m.body ++ rest), closed, lim } =
      match read { bytes := m.body ++ rest, closed, lim := lim.tail } m.body.length with
      | (.error e, p2) => (.error e, p2)
      | (.ok l, p2) =>
        if l.length = 0 then (.error ENOMSG, p2)
        else if l.length ≠ m.body.length then (.error ECONNRESET, p2)
        else (.ok (m.h, l), p2) := by
  have ho : Hdr.ofBytes m.h.bytes = m.h := by
    have := Hdr.ofBytes_bytes _ hm.fits []
    rwa [List.append_nil] at this
  have hpos : 0 < m.body.length := List.length_pos_iff.mpr hne
  have hs : m.h.size - HDR = m.body.length := by rw [hm.size]; simp [HDR]
  unfold recvMsg
  rw [getMsg_hdr' _ _ _ hl]
  dsimp only
  rw [ho, if_neg (show ¬ m.h.type ≠ TYPE_COMMAND from fun h => h hm.type),
    if_neg (by rw [hm.size]; have := hm.max; unfold HDR MAX_MSG Region.MAX_XFER; omega),
    if_neg (by rw [hm.size]; unfold HDR; omega), hs]

/-- C81: delivered in one piece, the version request is read as on the socket. -/
theorem C81_version (m : Msg) (hm : m.Ok) (hne : m.body ≠ []) (rest : List Byte) (closed : Bool) :
    let p : Pipe := { bytes := m.h.bytes ++ (m.body ++ rest), closed, lim := [] }
    recvMsg p = (.ok (m.h, m.body), { bytes := rest, closed, lim := [] }) ∧ (Wire.recvMsg p.sock).1 = .ok (m.h, m.body) := by
  intro p
  refine ⟨?_, sock_recvMsg m hm hne rest closed (fun _ h => by cases h)⟩
  have hpos : 0 < m.body.length := List.length_pos_iff.mpr hne
  rw [pipe_recvMsg m hm hne rest closed (fun _ h => by cases h), read_front hne (by unfold amount; simp)]
  dsimp only
  rw [if_neg (by omega), if_neg (by simp)]
  rfl

/-- C81: delivered in two pieces, it fails on the pipe though not on the socket. -/
theorem C81_pieces (m : Msg) (hm : m.Ok) (rest : List Byte) (closed : Bool) {k : Nat} (hk : 0 < k) (hk' : k < m.body.length) :
    let p : Pipe := { bytes := m.h.bytes ++ (m.body ++ rest), closed, lim := [16, k] }
    (recvMsg p).1 = .error ECONNRESET ∧ (Wire.recvMsg p.sock).1 = .ok (m.h, m.body) := by
  intro p
  have hne : m.body ≠ [] := List.length_pos_iff.mp (by omega)
  have hl : ∀ n ∈ ([16, k] : List Nat).head?, 16 ≤ n := fun n h => by cases h; exact Nat.le_refl _
  refine ⟨?_, sock_recvMsg m hm hne rest closed hl⟩
  rw [pipe_recvMsg m hm hne rest closed hl]
  have hs : m.body ++ rest = m.body.take k ++ (m.body.drop k ++ rest) := by rw [← List.append_assoc, List.take_append_drop]
  have hlen : (m.body.take k).length = k := by rw [List.length_take]; omega
  rw [hs, read_front (a := m.body.take k) (List.length_pos_iff.mp (by omega)) (by
    unfold amount
    dsimp only [List.tail]
    rw [hlen, List.length_append, hlen]
    omega)]
  dsimp only
  rw [if_neg (by omega), if_pos (by omega)]

/-! ## Examples -/

/-- A request of 32 bytes. -/
def exMsg (id cmd : Nat) : Msg := ⟨⟨id, cmd, 32, 0, 0⟩, enc 4 16 ++ enc 4 0 ++ enc 8 7, []⟩

theorem exMsg_ok {id cmd : Nat} (h1 : id < 65536) (h2 : cmd < 65536) : (exMsg id cmd).Ok :=
  ⟨⟨h1, h2, (by decide : 32 < U32), (by decide : 0 < U32), (by decide : 0 < U32)⟩, rfl, rfl, (by decide : 16 ≤ 1048576 + 16), .inl (fun h => by cases h), (by decide : 0 ≤ 1024)⟩

/-- Two requests and the beginning of a third. -/
example : reads 3 { bytes := (exMsg 1 4).h.bytes ++ (exMsg 1 4).body ++ ((exMsg 2 5).h.bytes ++ (exMsg 2 5).body) ++ [1#8, 2#8], closed := false, lim := [] } =
    [.req (exMsg 1 4).h (exMsg 1 4).body [], .req (exMsg 2 5).h (exMsg 2 5).body [], .lost ECONNRESET []] := by decide +kernel

example : reads 2 { bytes := [exMsg 1 4, exMsg 2 5].flatMap (fun m => m.h.bytes ++ m.body) ++ [9#8], closed := true, lim := [] } =
    [.req (exMsg 1 4).h (exMsg 1 4).body [], .req (exMsg 2 5).h (exMsg 2 5).body []] :=
  (C81_frames [exMsg 1 4, exMsg 2 5] (by
    intro m hm
    simp only [List.mem_cons, List.not_mem_nil, or_false] at hm
    rcases hm with rfl | rfl <;> exact exMsg_ok (by decide) (by decide)) (by
    intro m hm
    simp only [List.mem_cons, List.not_mem_nil, or_false] at hm
    rcases hm with rfl | rfl <;> rfl) [9#8] true).1

/-- The version request in two pieces. -/
example : (recvMsg { bytes := (exMsg 1 1).h.bytes ++ ((exMsg 1 1).body ++ []), closed := false, lim := [16, 4] }).1 = .error ECONNRESET :=
  (C81_pieces (exMsg 1 1) (exMsg_ok (by decide) (by decide)) [] false (by decide) (by decide)).1

/-- A reply to GET_INFO, and what the peer makes of it. -/
example : reply .ok ⟨3, 4, 32, 0, 0⟩ (.bytes [1#8, 2#8]) 0 = (.ok (), [[3#8, 0#8, 4#8, 0#8, 0#8, 0#8, 0#8, 0#8, 1#8, 0#8, 0#8, 0#8, 0#8, 0#8, 0#8, 0#8, 1#8, 2#8]]) ∧
    (recvReply { bytes := [3#8, 0#8, 4#8, 0#8, 0#8, 0#8, 0#8, 0#8, 1#8, 0#8, 0#8, 0#8, 0#8, 0#8, 0#8, 0#8, 1#8, 2#8], closed := false, lim := [] } 3 2).1 = .error EINVAL :=
  ⟨rfl, rfl⟩

/-- A reply of which the pipe takes five bytes is reported as sent. -/
example : reply (fun _ => .ok 5) ⟨3, 4, 32, 0, 0⟩ (.bytes [1#8, 2#8]) 0 = (.ok (), [[3#8, 0#8, 4#8, 0#8, 0#8]]) := rfl

end Pipe

end Verif.Wire
