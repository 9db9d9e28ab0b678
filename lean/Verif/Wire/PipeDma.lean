import Verif.Wire.Pipe
import Verif.Wire.Refused

/-!
# Transfers over a pipe

`vfu_sgl_read` and `vfu_sgl_write` on the pipe transport: the loop of `vfu_dma_transfer` over `tran_pipe_send_msg`.  C124: the
transfers of the socket, from a client that is told no sizes, provided that every answer arrives in one piece. -/

namespace Verif.Wire.Pipe
open Verif

/-! ## Model -/

/-- One exchange; `pipe` is the incoming pipe afterwards. -/
structure Xchg (σ : Type) where
  peer : σ
  pipe : Pipe
  res : Except Nat (Option (List Byte))
  sent : List (List Byte)

/-- `lib/tran_pipe.c:229-245,416-439` `tran_pipe_send_msg`, `tran_pipe_msg_iovec`: send the request, read the reply.  As in
`Wire.exchange` the client has written all of its answer, or gone away, when the answer is read. -/
def exchange {σ : Type} (snd : Send) (p : Peer σ) (st : σ) (q : Pipe) (id cmd : Nat) (data : List Byte) (len : Nat) : Xchg σ :=
  match command snd id cmd data with
  | (.error e, s) => { peer := st, pipe := q, res := .error e, sent := s }
  | (.ok (), s) =>
    let a := p st s.flatten
    let r := recvReply { q with bytes := q.bytes ++ a.2.getD [], closed := true } id len
    { peer := a.1, pipe := r.2, res := r.1, sent := s }

/-- Progress of a transfer. -/
structure Xfer (σ : Type) where
  peer : σ
  pipe : Pipe
  id : Nat
  data : List Byte
  res : Res Unit
  sent : List (List Byte)

/-- The loop `lib/libvfio-user.c:2316-2366`, READ; see `Wire.readLoop`. -/
def readLoop {σ : Type} (snd : Send) (p : Peer σ) (max base : Nat) :
    Nat → σ → Pipe → Nat → List Byte → Nat → Nat → List Byte → Xfer σ
  | 0, st, q, id, _, _, _, acc => { peer := st, pipe := q, id, data := acc, res := .fault .diverge, sent := [] }
  | fuel + 1, st, q, id, rbuf, remaining, count, acc =>
    if remaining = 0 then { peer := st, pipe := q, id, data := acc, res := .ok (), sent := [] }
    else
      let addr := add64 base count
      let n := min remaining max
      let x := exchange snd p st q (id % 65536) CMD_DMA_READ (access addr n) (n + 16)
      match x.res with
      | .error e => { peer := x.peer, pipe := x.pipe, id := id + 1, data := acc, res := .err (xferErr e), sent := x.sent }
      | .ok got =>
        let rbuf' := match got with | some d => d ++ rbuf.drop d.length | none => rbuf
        if leAt rbuf' 0 8 ≠ addr ∨ leAt rbuf' 8 8 ≠ n then
          { peer := x.peer, pipe := x.pipe, id := id + 1, data := acc, res := .err EINVAL, sent := x.sent }
        else
          let y := readLoop snd p max base fuel x.peer x.pipe (id + 1) rbuf' (remaining - n) (count + n)
            (acc ++ (rbuf'.drop 16).take n)
          { y with sent := x.sent ++ y.sent }

/-- The same loop, WRITE; see `Wire.writeLoop`. -/
def writeLoop {σ : Type} (snd : Send) (p : Peer σ) (max base : Nat) (data : List Byte) :
    Nat → σ → Pipe → Nat → Option (List Byte) → Nat → Nat → Xfer σ
  | 0, st, q, id, _, _, _ => { peer := st, pipe := q, id, data, res := .fault .diverge, sent := [] }
  | fuel + 1, st, q, id, rbuf, remaining, count =>
    if remaining = 0 then { peer := st, pipe := q, id, data, res := .ok (), sent := [] }
    else
      let addr := add64 base count
      let n := min remaining max
      let x := exchange snd p st q (id % 65536) CMD_DMA_WRITE (access addr n ++ (data.drop count).take n) 16
      match x.res with
      | .error e => { peer := x.peer, pipe := x.pipe, id := id + 1, data, res := .err (xferErr e), sent := x.sent }
      | .ok got =>
        match (match got with | some d => some d | none => rbuf) with
        | none => { peer := x.peer, pipe := x.pipe, id := id + 1, data, res := .fault .uninit, sent := x.sent }
        | some rep =>
          if leAt rep 0 8 ≠ addr ∨ leAt rep 8 8 ≠ n then
            { peer := x.peer, pipe := x.pipe, id := id + 1, data, res := .err EINVAL, sent := x.sent }
          else
            let y := writeLoop snd p max base data fuel x.peer x.pipe (id + 1) (some rep) (remaining - n) (count + n)
            { y with sent := x.sent ++ y.sent }

/-- `lib/libvfio-user.c:2275-2370` `vfu_dma_transfer` READ; see `Wire.dmaRead`. -/
def dmaRead {σ : Type} (snd : Send) (p : Peer σ) (max : Nat) (st : σ) (q : Pipe) (id : Nat) (sg : Dma.Sg) : Xfer σ :=
  readLoop snd p max (add64 sg.dmaAddr sg.offset) (sg.length + 1) st q id
    (List.replicate (16 + min sg.length max) 0#8) sg.length 0 []

/-- `lib/libvfio-user.c:2275-2370` `vfu_dma_transfer` WRITE; see `Wire.dmaWrite`. -/
def dmaWrite {σ : Type} (snd : Send) (p : Peer σ) (max : Nat) (st : σ) (q : Pipe) (id : Nat) (sg : Dma.Sg)
    (data : List Byte) : Xfer σ :=
  if sg.writeable = false then { peer := st, pipe := q, id, data, res := .err EPERM, sent := [] }
  else writeLoop snd p max (add64 sg.dmaAddr sg.offset) data (sg.length + 1) st q id none sg.length 0

/-! ## The transfers of the socket -/

/-- A message with zeros for its size. -/
def blank (w : List Byte) : List Byte := w.take 4 ++ List.replicate 4 0#8 ++ w.drop 8

/-- The client `p` as it is on a pipe. -/
def told {σ : Type} (p : Peer σ) : Peer σ := fun st w => p st (blank w)

/-- The outcome of a transfer on the socket, on a pipe. -/
def onPipe {σ : Type} (x : Wire.Xfer σ) : Xfer σ :=
  { peer := x.peer, pipe := { bytes := x.inq, closed := true, lim := [] }, id := x.id, data := x.data, res := x.res,
    sent := x.sent.map fun s => blank s.bytes }

theorem take_drop_fields {a b c d f g : List Byte} (ha : a.length = 2) (hb : b.length = 2) (hc : c.length = 4) :
    (a ++ b ++ c ++ d ++ f ++ g).take 4 = a ++ b ∧ (a ++ b ++ c ++ d ++ f ++ g).drop 8 = d ++ f ++ g := by
  constructor
  · simp only [List.append_assoc]
    rw [← List.append_assoc a b, List.take_append_of_le_length (by simp; omega), List.take_of_length_le (by simp; omega)]
  · simp only [List.append_assoc]
    rw [← List.append_assoc a b, ← List.append_assoc (a ++ b) c, List.drop_append_of_le_length (by simp; omega),
      List.drop_of_length_le (by simp; omega), List.nil_append]

/-- What is sent on a pipe is what is sent on a socket, without its size. -/
theorem blank_req (id cmd n : Nat) (data : List Byte) :
    blank ((reqHdr id cmd n).bytes ++ data) = (mkHdr (id % 65536) cmd false 0).bytes ++ data := by
  unfold blank Hdr.bytes
  obtain ⟨e1, e2⟩ := take_drop_fields (a := enc 2 (reqHdr id cmd n).id) (b := enc 2 (reqHdr id cmd n).cmd)
    (c := enc 4 (reqHdr id cmd n).size) (d := enc 4 (reqHdr id cmd n).flags) (f := enc 4 (reqHdr id cmd n).err) (g := data)
    (enc_length _ _) (enc_length _ _) (enc_length _ _)
  rw [e1, e2]
  simp [mkHdr, reqHdr, enc, TYPE_COMMAND]

theorem command_sent (snd : Send) (hs : Healthy snd) (id cmd : Nat) (data : List Byte) :
    command snd id cmd data = (.ok (), [(mkHdr id cmd false 0).bytes ++ data]) := by
  unfold command sendIovec
  dsimp only
  unfold sendIovec.go
  rw [hs]
  dsimp only
  rw [if_neg (by show ¬ _ < 0; omega), List.take_length]

/-- A pipe with the bytes `b` that delivers all it has. -/
abbrev whole (b : List Byte) : Pipe := { bytes := b, closed := true, lim := [] }

theorem whole_read (b : List Byte) (len : Nat) :
    (whole b).read len = (.ok (b.take len), whole (b.drop len)) := by
  unfold read
  by_cases hb : b = []
  · subst hb
    rw [if_pos rfl]
    simp
  · rw [if_neg hb]
    have ha : (whole b).amount len = min len b.length := by
      unfold amount
      dsimp only
      omega
    rw [ha]
    dsimp only
    rcases Nat.le_total len b.length with h | h
    · rw [Nat.min_eq_left h]
      rfl
    · rw [Nat.min_eq_right h, List.take_length, List.drop_length, List.take_of_length_le h, List.drop_of_length_le h]
      rfl

theorem sock_read (b : List Byte) (len : Nat) :
    Sock.recv { cells := plain b, closed := true, lim := [] } len =
      (if b = [] then .eof else .data (plain (b.take len)), { cells := plain (b.drop len), closed := true, lim := [] }) := by
  have h := sock_recv (whole b) (len := len)
  rw [whole_read] at h
  refine Eq.trans h ?_
  dsimp only
  by_cases hb : b = []
  · rw [if_pos hb, hb]
    simp
    rfl
  · rw [if_neg hb, if_neg (fun x => hb x.2)]
    rfl

theorem recvReply_sock (b : List Byte) (id : Nat) {len : Nat} (hlen : 0 < len) :
    ∃ b', (recvReply (whole b) id len).2 = whole b' ∧
      Wire.recvReply { cells := plain b, closed := true, lim := [] } id len =
        ((recvReply (whole b) id len).1, { cells := plain b', closed := true, lim := [] }) := by
  unfold Wire.recvReply recvReply getMsg
  rw [sock_read, whole_read]
  dsimp only
  by_cases hb : b = []
  · subst hb
    rw [if_pos rfl, if_pos (by simp)]
    exact ⟨_, rfl, rfl⟩
  rw [if_neg hb]
  have hb0 : 0 < b.length := List.length_pos_iff.mpr hb
  have h0 : ¬ (b.take HDR).length = 0 := by rw [List.length_take, show HDR = 16 from rfl]; omega
  rw [if_neg h0]
  dsimp only
  rw [plain_length]
  by_cases h1 : (b.take HDR).length < HDR
  · rw [if_pos h1, if_pos h1]
    exact ⟨_, rfl, rfl⟩
  rw [if_neg h1, if_neg h1, plain_fds, if_neg (by simp), plain_fst]
  dsimp only
  generalize Hdr.ofBytes (b.take HDR) = h
  by_cases c1 : h.id ≠ id
  · rw [if_pos c1, if_pos c1]; exact ⟨_, rfl, rfl⟩
  rw [if_neg c1, if_neg c1]
  by_cases c2 : h.type ≠ TYPE_REPLY
  · rw [if_pos c2, if_pos c2]; exact ⟨_, rfl, rfl⟩
  rw [if_neg c2, if_neg c2]
  by_cases c3 : h.error = true
  · rw [if_pos c3, if_pos c3]; exact ⟨_, rfl, rfl⟩
  rw [if_neg c3, if_neg c3]
  by_cases c4 : h.size < HDR ∨ h.size > MAX_MSG
  · rw [if_pos c4, if_pos c4]; exact ⟨_, rfl, rfl⟩
  rw [if_neg c4, if_neg c4]
  by_cases c5 : len > 0 ∧ h.size > HDR
  · rw [if_pos c5, if_pos c5, sock_read, whole_read]
    dsimp only
    by_cases d : b.drop HDR = []
    · rw [if_pos d, if_pos (by rw [d]; simp)]
      exact ⟨_, rfl, rfl⟩
    · have hd0 : 0 < (b.drop HDR).length := List.length_pos_iff.mpr d
      have hd1 : ¬ ((b.drop HDR).take (min (h.size - HDR) len)).length = 0 := by
        rw [List.length_take]
        omega
      rw [if_neg d, if_neg hd1]
      dsimp only
      rw [plain_length, plain_fst]
      by_cases c6 : ((b.drop HDR).take (min (h.size - HDR) len)).length ≠ len
      · rw [if_pos c6, if_pos c6]; exact ⟨_, rfl, rfl⟩
      · rw [if_neg c6, if_neg c6]; exact ⟨_, rfl, rfl⟩
  · rw [if_neg c5, if_neg c5]; exact ⟨_, rfl, rfl⟩

/-- One exchange on a pipe is one on a socket with a client that is told no sizes. -/
theorem exchange_same {σ : Type} (snd : Send) (hs : Healthy snd) (p : Peer σ) (st : σ) (b : List Byte) (id cmd len : Nat)
    (data : List Byte) (hd : data.length + 16 < U32) (hlen : 0 < len) :
    exchange snd p st (whole b) (id % 65536) cmd data len =
      { peer := (Wire.exchange snd (told p) st b (id % 65536) cmd data len).peer,
        pipe := whole (Wire.exchange snd (told p) st b (id % 65536) cmd data len).inq,
        res := (Wire.exchange snd (told p) st b (id % 65536) cmd data len).res,
        sent := (Wire.exchange snd (told p) st b (id % 65536) cmd data len).sent.map fun s => blank s.bytes } := by
  unfold exchange Wire.exchange
  rw [command_sent snd hs, send_request snd hs id cmd data hd]
  dsimp only
  have e : (told p) st (([{ bytes := (reqHdr id cmd data.length).bytes ++ data, fds := [] }] : List Sent).flatMap Sent.bytes) =
      p st [(mkHdr (id % 65536) cmd false 0).bytes ++ data].flatten := by
    unfold told
    simp only [List.flatMap_cons, List.flatMap_nil, List.append_nil, List.flatten_cons, List.flatten_nil]
    rw [blank_req]
  rw [e]
  obtain ⟨b', h1, h2⟩ := recvReply_sock (b ++ (p st [(mkHdr (id % 65536) cmd false 0).bytes ++ data].flatten).2.getD []) (id % 65536) hlen
  have h2' := h2
  unfold plain at h2'
  rw [h2']
  dsimp only
  rw [h1]
  have e2 : (plain b').map Prod.fst = b' := plain_fst b'
  unfold plain at e2
  rw [e2, List.map_cons, List.map_nil, blank_req]

theorem readLoop_same {σ : Type} (snd : Send) (hs : Healthy snd) (p : Peer σ) (max base : Nat) (fuel : Nat) :
    ∀ (st : σ) (b : List Byte) (id : Nat) (rbuf : List Byte) (remaining count : Nat) (acc : List Byte),
      readLoop snd p max base fuel st (whole b) id rbuf remaining count acc =
        onPipe (Wire.readLoop snd (told p) max base fuel st b id rbuf remaining count acc) := by
  induction fuel with
  | zero => intros; rfl
  | succ fuel ih =>
    intro st b id rbuf remaining count acc
    unfold readLoop Wire.readLoop
    by_cases h0 : remaining = 0
    · rw [if_pos h0, if_pos h0]
      rfl
    rw [if_neg h0, if_neg h0]
    dsimp only
    rw [exchange_same snd hs p st b id CMD_DMA_READ _ _ (by rw [access_length]; decide) (by omega)]
    dsimp only
    rcases Wire.exchange snd (told p) st b (id % 65536) CMD_DMA_READ (access (add64 base count) (min remaining max))
      (min remaining max + 16) with ⟨st', inq', res, sent⟩
    dsimp only
    cases res with
    | error e => rfl
    | ok got =>
      dsimp only
      have key : ∀ rb : List Byte,
          (if leAt rb 0 8 ≠ add64 base count ∨ leAt rb 8 8 ≠ min remaining max then
            ({ peer := st', pipe := whole inq', id := id + 1, data := acc, res := .err EINVAL,
               sent := sent.map fun s => blank s.bytes } : Xfer σ)
          else
            let y := readLoop snd p max base fuel st' (whole inq') (id + 1) rb (remaining - min remaining max)
              (count + min remaining max) (acc ++ (rb.drop 16).take (min remaining max))
            { y with sent := (sent.map fun s => blank s.bytes) ++ y.sent }) =
          onPipe (if leAt rb 0 8 ≠ add64 base count ∨ leAt rb 8 8 ≠ min remaining max then
            { peer := st', inq := inq', id := id + 1, data := acc, res := .err EINVAL, sent := sent }
          else
            let y := Wire.readLoop snd (told p) max base fuel st' inq' (id + 1) rb (remaining - min remaining max)
              (count + min remaining max) (acc ++ (rb.drop 16).take (min remaining max))
            { y with sent := sent ++ y.sent }) := by
        intro rb
        by_cases hc : leAt rb 0 8 ≠ add64 base count ∨ leAt rb 8 8 ≠ min remaining max
        · rw [if_pos hc, if_pos hc]
          rfl
        · rw [if_neg hc, if_neg hc, ih]
          unfold onPipe
          dsimp only
          rw [List.map_append]
      cases got with
      | none => exact key _
      | some d => exact key _

theorem writeLoop_same {σ : Type} (snd : Send) (hs : Healthy snd) (p : Peer σ) (max base : Nat) (data : List Byte) (fuel : Nat) :
    ∀ (st : σ) (b : List Byte) (id : Nat) (rbuf : Option (List Byte)) (remaining count : Nat),
      min remaining max + 32 < U32 →
      writeLoop snd p max base data fuel st (whole b) id rbuf remaining count =
        onPipe (Wire.writeLoop snd (told p) max base data fuel st b id rbuf remaining count) := by
  induction fuel with
  | zero => intros; rfl
  | succ fuel ih =>
    intro st b id rbuf remaining count hlt
    unfold writeLoop Wire.writeLoop
    by_cases h0 : remaining = 0
    · rw [if_pos h0, if_pos h0]
      rfl
    rw [if_neg h0, if_neg h0]
    dsimp only
    rw [exchange_same snd hs p st b id CMD_DMA_WRITE _ _
      (by rw [List.length_append, access_length, List.length_take]; omega) (by omega)]
    dsimp only
    rcases Wire.exchange snd (told p) st b (id % 65536) CMD_DMA_WRITE (access (add64 base count) (min remaining max) ++
      (data.drop count).take (min remaining max)) 16 with ⟨st', inq', res, sent⟩
    dsimp only
    cases res with
    | error e => rfl
    | ok got =>
      dsimp only
      have key : ∀ rb : Option (List Byte),
          (match rb with
            | none => ({ peer := st', pipe := whole inq', id := id + 1, data, res := .fault .uninit,
                         sent := sent.map fun s => blank s.bytes } : Xfer σ)
            | some rep =>
              if leAt rep 0 8 ≠ add64 base count ∨ leAt rep 8 8 ≠ min remaining max then
                { peer := st', pipe := whole inq', id := id + 1, data, res := .err EINVAL,
                  sent := sent.map fun s => blank s.bytes }
              else
                let y := writeLoop snd p max base data fuel st' (whole inq') (id + 1) (some rep) (remaining - min remaining max)
                  (count + min remaining max)
                { y with sent := (sent.map fun s => blank s.bytes) ++ y.sent }) =
          onPipe (match rb with
            | none => { peer := st', inq := inq', id := id + 1, data, res := .fault .uninit, sent := sent }
            | some rep =>
              if leAt rep 0 8 ≠ add64 base count ∨ leAt rep 8 8 ≠ min remaining max then
                { peer := st', inq := inq', id := id + 1, data, res := .err EINVAL, sent := sent }
              else
                let y := Wire.writeLoop snd (told p) max base data fuel st' inq' (id + 1) (some rep)
                  (remaining - min remaining max) (count + min remaining max)
                { y with sent := sent ++ y.sent }) := by
        intro rb
        cases rb with
        | none => rfl
        | some rep =>
          dsimp only
          by_cases hc : leAt rep 0 8 ≠ add64 base count ∨ leAt rep 8 8 ≠ min remaining max
          · rw [if_pos hc, if_pos hc]
            rfl
          · rw [if_neg hc, if_neg hc, ih _ _ _ _ _ _ (by omega)]
            unfold onPipe
            dsimp only
            rw [List.map_append]
      cases got with
      | none => exact key rbuf
      | some d => exact key (some d)

/-- **C124**: as long as every read of the pipe delivers what was asked for or all there is, a read comes out as on a socket
from the client that sees zeros for the size of a request, and the requests are those of the socket with zeros for their size. -/
theorem C124_read {σ : Type} (snd : Send) (hs : Healthy snd) (p : Peer σ) (max : Nat) (st : σ) (b : List Byte) (id : Nat)
    (sg : Dma.Sg) :
    dmaRead snd p max st { bytes := b, closed := true, lim := [] } id sg =
      onPipe (Wire.dmaRead snd (fun st w => p st (blank w)) max st b id sg) :=
  readLoop_same snd hs p max _ _ st b id _ _ _ _

/-- **C124**, the same for a write. -/
theorem C124_write {σ : Type} (snd : Send) (hs : Healthy snd) (p : Peer σ) (max : Nat) (st : σ) (b : List Byte) (id : Nat)
    (sg : Dma.Sg) (data : List Byte) (hsz : min sg.length max + 32 < U32) :
    dmaWrite snd p max st { bytes := b, closed := true, lim := [] } id sg data =
      onPipe (Wire.dmaWrite snd (fun st w => p st (blank w)) max st b id sg data) := by
  unfold dmaWrite Wire.dmaWrite
  by_cases hw : sg.writeable = false
  · rw [if_pos hw, if_pos hw]
    rfl
  · rw [if_neg hw, if_neg hw]
    exact writeLoop_same snd hs p max _ data _ st b id _ _ _ hsz

/-! ## A client that does not look at sizes -/

theorem getD_blank (w : List Byte) (i : Nat) (hi : i < 4 ∨ 8 ≤ i) : (blank w).getD i 0#8 = w.getD i 0#8 := by
  unfold blank
  simp only [List.getD]
  rcases Nat.lt_or_ge w.length 4 with h | h
  · rw [List.drop_of_length_le (by omega), List.take_of_length_le (by omega), List.append_nil]
    rcases Nat.lt_or_ge i w.length with h1 | h1
    · rw [List.getElem?_append_left h1]
    · rw [List.getElem?_append_right h1, List.getElem?_eq_none h1, List.getElem?_replicate]
      split <;> rfl
  · have hl : (w.take 4).length = 4 := by rw [List.length_take]; omega
    rcases hi with hi | hi
    · rw [List.append_assoc, List.getElem?_append_left (by omega), List.getElem?_take, if_pos hi]
    · rw [List.getElem?_append_right (by rw [List.length_append, hl, List.length_replicate]; omega), List.length_append, hl,
        List.length_replicate, List.getElem?_drop]
      congr 2
      omega

theorem leAt_blank (w : List Byte) (n : Nat) : ∀ off, (off + n ≤ 4 ∨ 8 ≤ off) → leAt (blank w) off n = leAt w off n := by
  induction n with
  | zero => intros; rfl
  | succ n ih =>
    intro off h
    simp only [leAt]
    rw [getD_blank w off (by omega), ih (off + 1) (by omega)]

theorem drop_blank (w : List Byte) : (blank w).drop 32 = w.drop 32 := by
  unfold blank
  rcases Nat.lt_or_ge w.length 8 with h | h
  · rw [List.drop_of_length_le (by simp only [List.length_append, List.length_take, List.length_replicate, List.length_drop]; omega),
      List.drop_of_length_le (by omega)]
  · have hl : (w.take 4 ++ List.replicate 4 0#8).length = 8 := by
      rw [List.length_append, List.length_take, List.length_replicate]; omega
    rw [List.drop_append, List.drop_of_length_le (by omega), List.nil_append, hl, List.drop_drop]

/-- The client of C52 does not look at sizes. -/
theorem told_serve : told serve = serve := by
  funext m w
  unfold told serve
  dsimp only
  rw [leAt_blank w 8 16 (by omega), leAt_blank w 8 24 (by omega), drop_blank]
  have h1 : (Hdr.ofBytes (blank w)).cmd = (Hdr.ofBytes w).cmd := leAt_blank w 2 2 (by omega)
  have h2 : ∀ n, ansHdr (Hdr.ofBytes (blank w)) n = ansHdr (Hdr.ofBytes w) n := by
    intro n
    have h3 : (Hdr.ofBytes (blank w)).id = (Hdr.ofBytes w).id := leAt_blank w 2 0 (by omega)
    unfold ansHdr
    rw [h1, h3]
  rw [h1, h2, h2]

/-- **C124**: a client that serves its memory and does not look at sizes is read as on a socket. -/
theorem C124_served (snd : Send) (hs : Healthy snd) (m : Nat → Byte) (max : Nat) (hm : 0 < max) (id : Nat) (sg : Dma.Sg)
    (hsg : sg.dmaAddr + sg.offset + sg.length ≤ U64) (hsz : min sg.length max ≤ 1048576) (hpos : 0 < sg.length) :
    ((dmaRead snd serve max m { bytes := [], closed := true, lim := [] } id sg).res = .ok () ∧
      (dmaRead snd serve max m { bytes := [], closed := true, lim := [] } id sg).data =
        peek m (sg.dmaAddr + sg.offset) sg.length ∧
      (dmaRead snd serve max m { bytes := [], closed := true, lim := [] } id sg).pipe.bytes = []) ∧
    ∀ data, data.length = sg.length → sg.writeable = true →
      (dmaWrite snd serve max m { bytes := [], closed := true, lim := [] } id sg data).res = .ok () ∧
      (dmaWrite snd serve max m { bytes := [], closed := true, lim := [] } id sg data).peer =
        poke m (sg.dmaAddr + sg.offset) data ∧
      (dmaWrite snd serve max m { bytes := [], closed := true, lim := [] } id sg data).pipe.bytes = [] := by
  have hU : min sg.length max + 32 < U32 := by simp only [U32]; omega
  have ht : (fun st w => serve st (blank w)) = serve := told_serve
  constructor
  · rw [C124_read snd hs, ht, C52_read snd hs m max hm id sg hsg hsz hpos]
    exact ⟨rfl, rfl, rfl⟩
  · intro data hd hw
    rw [C124_write snd hs serve max m [] id sg data hU, ht, C52_write snd hs m max hm id sg data hd hw hsg hU hpos]
    exact ⟨rfl, rfl, rfl⟩

/-! ## A client that does -/

/-- The size in the header. -/
def sizeOf (w : List Byte) : Nat := leAt w 4 4

theorem sizeOf_blank {w : List Byte} (h : 8 ≤ w.length) : sizeOf (blank w) = 0 := by
  have hl : (w.take 4).length = 4 := by rw [List.length_take]; omega
  have hz : ∀ i, 4 ≤ i → i < 8 → (blank w).getD i 0#8 = 0#8 := by
    intro i h1 h2
    unfold blank
    simp only [List.getD]
    rw [List.append_assoc, List.getElem?_append_right (by omega), List.getElem?_append_left (by rw [List.length_replicate]; omega),
      List.getElem?_replicate, if_pos (by omega)]
    rfl
  unfold sizeOf
  simp only [leAt]
  rw [hz 4 (by omega) (by omega), hz 5 (by omega) (by omega), hz 6 (by omega) (by omega), hz 7 (by omega) (by omega)]
  rfl

theorem blank_length {w : List Byte} (h : 8 ≤ w.length) : (blank w).length = w.length := by
  unfold blank
  simp only [List.length_append, List.length_take, List.length_replicate, List.length_drop]
  omega

/-- **C124**: a client that refuses a message whose size is not its length, as this library does, refuses every transfer: the
first request is the only one, nothing is read, and the call fails with the error of that refusal. -/
theorem C124_strict {σ : Type} (snd : Send) (hs : Healthy snd) (p : Peer σ) (max : Nat) (st : σ) (id : Nat) (sg : Dma.Sg)
    (hpos : 0 < sg.length) {e : Nat}
    (hp : ∀ w, sizeOf w ≠ w.length → Outcome (leAt w 0 2) (p st w).2 e) :
    ((dmaRead snd p max st { bytes := [], closed := true, lim := [] } id sg).res = .err e ∧
      (dmaRead snd p max st { bytes := [], closed := true, lim := [] } id sg).data = [] ∧
      (dmaRead snd p max st { bytes := [], closed := true, lim := [] } id sg).sent.length = 1) ∧
    ∀ data, data.length = sg.length → sg.writeable = true → min sg.length max + 32 < U32 →
      (dmaWrite snd p max st { bytes := [], closed := true, lim := [] } id sg data).res = .err e ∧
      (dmaWrite snd p max st { bytes := [], closed := true, lim := [] } id sg data).sent.length = 1 := by
  have key : ∀ cmd n (d : List Byte), Outcome (id % 65536) (p st (blank ((reqHdr id cmd n).bytes ++ d))).2 e := by
    intro cmd n d
    have hl : 8 ≤ ((reqHdr id cmd n).bytes ++ d).length := by rw [List.length_append, Hdr.bytes_length]; omega
    have h := hp (blank ((reqHdr id cmd n).bytes ++ d)) (by rw [sizeOf_blank hl, blank_length hl]; omega)
    have hi : leAt (blank ((reqHdr id cmd n).bytes ++ d)) 0 2 = id % 65536 := by
      rw [leAt_blank _ 2 0 (by omega)]
      unfold Hdr.bytes
      simp only [List.append_assoc]
      rw [leAt_append_left _ _ _ _ (by rw [enc_length]), leAt_enc]
      simp [reqHdr]
    rwa [hi] at h
  constructor
  · obtain ⟨h1, h2, h3⟩ := C52_read_refused snd hs (fun st w => p st (blank w)) max st id sg hpos (e := e) (key _ _ _)
    rw [C124_read snd hs]
    exact ⟨h1, h2, by rw [show ∀ x : Wire.Xfer σ, (onPipe x).sent.length = x.sent.length from fun x => List.length_map ..]; exact h3⟩
  · intro data hd hw hU
    obtain ⟨h1, h2⟩ := C52_write_refused snd hs (fun st w => p st (blank w)) max st id sg hpos hw data hd hU (e := e) (key _ _ _)
    rw [C124_write snd hs p max st [] id sg data hU]
    exact ⟨h1, by rw [show ∀ x : Wire.Xfer σ, (onPipe x).sent.length = x.sent.length from fun x => List.length_map ..]; exact h2⟩

/-! ## An answer in pieces -/

theorem read_short {b : List Byte} {closed : Bool} {k : Nat} {lim : List Nat} {len : Nat} {l : List Byte} {q : Pipe}
    (hk : 0 < k) (h : read { bytes := b, closed, lim := k :: lim } len = (.ok l, q)) : l.length ≤ k ∧ (b = [] → l = []) := by
  unfold read at h
  by_cases hb : b = []
  · rw [if_pos hb] at h
    split at h
    · cases h
      exact ⟨by simp, fun _ => rfl⟩
    · cases h
  · rw [if_neg hb] at h
    cases h
    refine ⟨?_, fun x => absurd x hb⟩
    rw [List.length_take]
    unfold amount
    dsimp only
    omega

/-- A payload of which a read delivers only a part is no payload. -/
theorem recvReply_short (b : List Byte) (a k : Nat) (t : List Nat) (id len : Nat) (h0 : 0 < k) (hk : k < len) :
    (∃ e, (recvReply { bytes := b, closed := true, lim := a :: k :: t } id len).1 = .error e) ∨
      (recvReply { bytes := b, closed := true, lim := a :: k :: t } id len).1 = .ok none := by
  unfold recvReply getMsg
  by_cases hb : b = []
  · subst hb
    exact .inl ⟨ENOMSG, rfl⟩
  have hr : read { bytes := b, closed := true, lim := a :: k :: t } HDR =
      (.ok (b.take (amount { bytes := b, closed := true, lim := a :: k :: t } HDR)),
        { bytes := b.drop (amount { bytes := b, closed := true, lim := a :: k :: t } HDR), closed := true, lim := k :: t }) := by
    unfold read
    rw [if_neg hb]
    rfl
  rw [hr]
  dsimp only
  generalize amount { bytes := b, closed := true, lim := a :: k :: t } HDR = z
  by_cases c0 : (b.take z).length = 0
  · rw [if_pos c0]; exact .inl ⟨_, rfl⟩
  rw [if_neg c0]
  by_cases c1 : (b.take z).length < HDR
  · rw [if_pos c1]; exact .inl ⟨_, rfl⟩
  rw [if_neg c1]
  dsimp only
  generalize Hdr.ofBytes (b.take z) = h
  by_cases d1 : h.id ≠ id
  · rw [if_pos d1]; exact .inl ⟨_, rfl⟩
  rw [if_neg d1]
  by_cases d2 : h.type ≠ TYPE_REPLY
  · rw [if_pos d2]; exact .inl ⟨_, rfl⟩
  rw [if_neg d2]
  by_cases d3 : h.error = true
  · rw [if_pos d3]; exact .inl ⟨_, rfl⟩
  rw [if_neg d3]
  by_cases d4 : h.size < HDR ∨ h.size > MAX_MSG
  · rw [if_pos d4]; exact .inl ⟨_, rfl⟩
  rw [if_neg d4]
  by_cases d5 : len > 0 ∧ h.size > HDR
  · rw [if_pos d5]
    rcases hq : read { bytes := b.drop z, closed := true, lim := k :: t } (min (h.size - HDR) len) with ⟨_ | l, q⟩
    · exact .inl ⟨_, rfl⟩
    · obtain ⟨e1, _⟩ := read_short h0 hq
      dsimp only
      by_cases e2 : l.length = 0
      · rw [if_pos e2]; exact .inl ⟨_, rfl⟩
      · rw [if_neg e2, if_pos (by omega)]; exact .inl ⟨_, rfl⟩
  · rw [if_neg d5]; exact .inr rfl

theorem exchange_short {σ : Type} (snd : Send) (p : Peer σ) (st : σ) (b : List Byte) (a k : Nat) (t : List Nat)
    (id cmd len : Nat) (data : List Byte) (h0 : 0 < k) (hk : k < len) :
    (∃ e, (exchange snd p st { bytes := b, closed := true, lim := a :: k :: t } id cmd data len).res = .error e) ∨
      (exchange snd p st { bytes := b, closed := true, lim := a :: k :: t } id cmd data len).res = .ok none := by
  unfold exchange
  rcases command snd id cmd data with ⟨_ | _, s⟩
  · exact .inl ⟨_, rfl⟩
  · exact recvReply_short _ a k t id len h0 hk

theorem leAt_zeros (m n : Nat) : ∀ off, leAt (List.replicate m 0#8) off n = 0 := by
  induction n with
  | zero => intro off; rfl
  | succ n ih =>
    intro off
    simp only [leAt, ih, Nat.mul_zero, Nat.add_zero]
    by_cases ho : off < m
    · simp [List.getD, ho]
    · simp [List.getD, ho]

/-- **C124**: whatever the client answers, no transfer succeeds if the first answer does not arrive in one piece: if the read for
its payload delivers `k` bytes and that is less than was asked for. -/
theorem C124_pieces {σ : Type} (snd : Send) (p : Peer σ) (max : Nat) (hm : 0 < max) (st : σ) (b : List Byte) (a k : Nat)
    (t : List Nat) (h0 : 0 < k) (id : Nat) (sg : Dma.Sg) (hpos : 0 < sg.length) :
    (k < min sg.length max + 16 →
      (dmaRead snd p max st { bytes := b, closed := true, lim := a :: k :: t } id sg).res ≠ .ok () ∧
      (dmaRead snd p max st { bytes := b, closed := true, lim := a :: k :: t } id sg).data = []) ∧
    ∀ data, k < 16 →
      (dmaWrite snd p max st { bytes := b, closed := true, lim := a :: k :: t } id sg data).res ≠ .ok () := by
  constructor
  · intro hk
    unfold dmaRead readLoop
    rw [if_neg (by omega)]
    dsimp only
    rcases exchange_short snd p st b a k t (id % 65536) CMD_DMA_READ (min sg.length max + 16)
      (access (add64 (add64 sg.dmaAddr sg.offset) 0) (min sg.length max)) h0 hk with ⟨e, h⟩ | h
    · rw [h]
      exact ⟨by simp, rfl⟩
    · rw [h]
      dsimp only
      rw [if_pos (.inr (by rw [leAt_zeros]; omega))]
      exact ⟨by simp, rfl⟩
  · intro data hk
    unfold dmaWrite
    by_cases hw : sg.writeable = false
    · rw [if_pos hw]; simp
    rw [if_neg hw]
    unfold writeLoop
    rw [if_neg (by omega)]
    dsimp only
    rcases exchange_short snd p st b a k t (id % 65536) CMD_DMA_WRITE 16
      (access (add64 (add64 sg.dmaAddr sg.offset) 0) (min sg.length max) ++ (data.drop 0).take (min sg.length max)) h0 hk with
      ⟨e, h⟩ | h
    · rw [h]; simp
    · rw [h]; simp

/-- **C124**: so for a client that serves its memory: the read fails with `ENOTCONN`, as if the client had gone away, and the
rest of its answer stays on the pipe, where the next request is read from. -/
theorem C124_rest (snd : Send) (hs : Healthy snd) (m : Nat → Byte) (max : Nat) (a k : Nat) (t : List Nat)
    (ha : 16 ≤ a) (h0 : 0 < k) (id : Nat) (sg : Dma.Sg) (hpos : 0 < sg.length) (hsg : sg.dmaAddr + sg.offset + sg.length ≤ U64)
    (hsz : min sg.length max ≤ 1048576) (hk : k < min sg.length max + 16) :
    (dmaRead snd serve max m { bytes := [], closed := true, lim := a :: k :: t } id sg).res = .err ENOTCONN ∧
    (dmaRead snd serve max m { bytes := [], closed := true, lim := a :: k :: t } id sg).pipe =
      { bytes := (access (sg.dmaAddr + sg.offset) (min sg.length max) ++
          peek m (sg.dmaAddr + sg.offset) (min sg.length max)).drop k, closed := true, lim := t } := by
  generalize hn : min sg.length max = n at *
  have e1 : add64 sg.dmaAddr sg.offset = sg.dmaAddr + sg.offset := add64_of_lt (by omega)
  have e2 : add64 (sg.dmaAddr + sg.offset) 0 = sg.dmaAddr + sg.offset := add64_of_lt (by omega)
  generalize sg.dmaAddr + sg.offset = base at *
  obtain ⟨f1, f2, f3, _⟩ := req_fields id 11 base n [] 16 (by decide) (by decide) (by omega)
    (by simp only [U64] at *; omega)
  rw [List.append_nil] at f1 f2 f3
  have hx : serve m [(mkHdr (id % 65536) 11 false 0).bytes ++ access base n].flatten =
      (m, some ((ansHdr (reqHdr id 11 16) (16 + n)).bytes ++ (access base n ++ peek m base n))) := by
    rw [List.flatten_cons, List.flatten_nil, List.append_nil, ← blank_req id 11 16]
    show told serve m _ = _
    rw [told_serve]
    unfold serve
    dsimp only
    rw [f1, f2, f3, if_pos (by simp [reqHdr])]
  have hf : (ansHdr (reqHdr id 11 16) (16 + n)).Fits :=
    ⟨Nat.mod_lt _ (by decide), by simp [ansHdr, reqHdr], by simp only [ansHdr, U32]; omega, by simp [ansHdr, U32],
      by simp [ansHdr, U32]⟩
  have hof := Hdr.ofBytes_bytes _ hf []
  rw [List.append_nil] at hof
  have hlen : (access base n ++ peek m base n).length = 16 + n := by rw [List.length_append, access_length, peek_length]
  have hrd : read { bytes := access base n ++ peek m base n, closed := true, lim := k :: t } (n + 16) =
      (.ok ((access base n ++ peek m base n).take k),
        { bytes := (access base n ++ peek m base n).drop k, closed := true, lim := t }) := by
    have hne : access base n ++ peek m base n ≠ [] := by
      intro x
      rw [x] at hlen
      simp at hlen
      omega
    unfold read
    rw [if_neg hne]
    have : amount { bytes := access base n ++ peek m base n, closed := true, lim := k :: t } (n + 16) = k := by
      unfold amount
      dsimp only
      rw [hlen]
      omega
    rw [this]
    rfl
  have hxc : exchange snd serve m { bytes := [], closed := true, lim := a :: k :: t } (id % 65536) CMD_DMA_READ (access base n) (n + 16) =
      { peer := m, pipe := { bytes := (access base n ++ peek m base n).drop k, closed := true, lim := t },
        res := .error ECONNRESET, sent := [(mkHdr (id % 65536) 11 false 0).bytes ++ access base n] } := by
    unfold exchange
    rw [show CMD_DMA_READ = 11 from rfl, command_sent snd hs]
    dsimp only
    rw [hx]
    dsimp only [Option.getD_some]
    rw [List.nil_append]
    have hrr : recvReply
        { bytes := (ansHdr (reqHdr id 11 16) (16 + n)).bytes ++ (access base n ++ peek m base n), closed := true, lim := a :: k :: t }
        (id % 65536) (n + 16) =
        (.error ECONNRESET, { bytes := (access base n ++ peek m base n).drop k, closed := true, lim := t }) := by
      unfold recvReply
      rw [getMsg_hdr' _ _ _ (by intro x hx; cases hx; exact ha)]
      dsimp only
      rw [hof, if_neg (by simp [ansHdr, reqHdr]), if_neg (by simp [ansHdr, Hdr.type, TYPE_REPLY]),
        if_neg (by simp only [ansHdr, Hdr.error]; decide),
        if_neg (by simp only [ansHdr, MAX_MSG, Region.MAX_XFER, HDR]; omega),
        if_pos (by simp only [ansHdr, HDR]; omega)]
      rw [show min ((ansHdr (reqHdr id 11 16) (16 + n)).size - HDR) (n + 16) = n + 16 by
        simp only [ansHdr, HDR]; omega, List.tail_cons, hrd]
      dsimp only
      have hl : ((access base n ++ peek m base n).take k).length = k := by rw [List.length_take, hlen]; omega
      rw [if_neg (by omega), if_pos (by omega)]
    rw [hrr]
  unfold dmaRead readLoop
  rw [if_neg (by omega), hn]
  dsimp only
  rw [e1, e2, hxc]
  exact ⟨rfl, rfl⟩

/-- **C124**: if address and count arrive first, what is read as the next request is the memory of the client: a message in it is
taken for one that the client sent. -/
theorem C124_injected (snd : Send) (hs : Healthy snd) (m : Nat → Byte) (max : Nat) (a : Nat) (ha : 16 ≤ a) (id : Nat) (sg : Dma.Sg)
    (hsg : sg.dmaAddr + sg.offset + sg.length ≤ U64) (hmax : sg.length ≤ max) (hsz : sg.length ≤ 1048576) (r : Msg) (hr : r.Ok)
    (hf : r.fds = []) (more : List Byte) (hmem : peek m (sg.dmaAddr + sg.offset) sg.length = r.h.bytes ++ r.body ++ more) :
    (dmaRead snd serve max m { bytes := [], closed := true, lim := [a, 16] } id sg).pipe.next =
      (.req r.h r.body [], { bytes := more, closed := true, lim := [] }) := by
  have hl : sg.length = 16 + r.body.length + more.length := by
    have := congrArg List.length hmem
    rw [peek_length, List.length_append, List.length_append, Hdr.bytes_length] at this
    exact this
  have hmin : min sg.length max = sg.length := Nat.min_eq_left hmax
  rw [(C124_rest snd hs m max a 16 [] ha (by decide) id sg (by omega) hsg (by rw [hmin]; exact hsz) (by rw [hmin]; omega)).2]
  rw [hmin, List.drop_append_of_le_length (by rw [access_length]), List.drop_of_length_le (by rw [access_length]), List.nil_append, hmem]
  obtain ⟨h1, h2⟩ := C81_frames [r] (fun x hx => by rw [List.mem_singleton.mp hx]; exact hr)
    (fun x hx => by rw [List.mem_singleton.mp hx]; exact hf) more true
  rw [List.flatMap_cons, List.flatMap_nil, List.append_nil] at h1 h2
  have e1 := (List.cons.inj h1).1
  exact Prod.ext e1 h2

/-! ## Examples -/

/-- A reset request in the memory of the client. -/
example : (dmaRead .ok serve 64 (fun i => ((⟨9, 13, 16, 0, 0⟩ : Hdr).bytes).getD i 0#8)
      { bytes := [], closed := true, lim := [16, 16] } 1 { dmaAddr := 0, region := 0, length := 16, offset := 0, writeable := true }).pipe.next.1 =
    .req ⟨9, 13, 16, 0, 0⟩ [] [] := by decide +kernel

/-- Five bytes at address 2, two at a time. -/
def exFive : Dma.Sg := { dmaAddr := 0, region := 0, length := 5, offset := 2, writeable := true }

example : (dmaRead .ok serve 2 (fun i => BitVec.ofNat 8 i) { bytes := [], closed := true, lim := [] } 1 exFive).data =
    [2#8, 3#8, 4#8, 5#8, 6#8] := by decide +kernel

/-- Twenty bytes of the first answer's 21 arrive: the last one is left for the next request. -/
example : (dmaRead .ok serve 64 (fun i => BitVec.ofNat 8 i) { bytes := [], closed := true, lim := [16, 20] } 1 exFive).res =
      .err ENOTCONN ∧
    (dmaRead .ok serve 64 (fun i => BitVec.ofNat 8 i) { bytes := [], closed := true, lim := [16, 20] } 1 exFive).pipe.bytes = [6#8] := by
  decide +kernel

/-- A client that holds a request to its size, and answers it from its memory if it is right: it satisfies the hypothesis of
`C124_strict` with `EINVAL`, and on a socket it is read as any other. -/
def strict : Peer (Nat → Byte) := fun m w =>
  if sizeOf w = w.length then serve m w
  else (m, some ({ id := leAt w 0 2, cmd := leAt w 2 2, size := 16, flags := 33, err := EINVAL } : Hdr).bytes)

example : (dmaRead .ok strict 2 (fun i => BitVec.ofNat 8 i) { bytes := [], closed := true, lim := [] } 1 exFive).res = .err EINVAL ∧
    (Wire.dmaRead .ok strict 2 (fun i => BitVec.ofNat 8 i) [] 1 exFive).data = [2#8, 3#8, 4#8, 5#8, 6#8] := by decide +kernel

theorem strict_refuses (m : Nat → Byte) (w : List Byte) (h : sizeOf w ≠ w.length) : Outcome (leAt w 0 2) (strict m w).2 EINVAL := by
  unfold strict
  rw [if_neg h]
  have hb : ∀ (l : List Byte) (off : Nat), leAt l off 2 < 65536 := by
    intro l off
    simp only [leAt]
    have h1 := (l.getD off 0#8).isLt
    have h2 := (l.getD (off + 1) 0#8).isLt
    omega
  have ho := Hdr.ofBytes_bytes ({ id := leAt w 0 2, cmd := leAt w 2 2, size := 16, flags := 33, err := EINVAL } : Hdr)
    ⟨hb w 0, hb w 2, by simp [U32], by simp [U32], by simp [EINVAL, U32]⟩ []
  rw [List.append_nil] at ho
  have hr := Outcome.failed (id := leAt w 0 2) (rest := []) (Hdr.bytes_length _)
    (Refusal.error (e := EINVAL) (by rw [ho]) (by rw [ho]; exact (by decide : 33 % 16 = 1)) (by rw [ho]; exact (by decide : (33).testBit 5 = true)) (by rw [ho]) (by decide) (by decide)) (by decide)
  rw [List.append_nil] at hr
  exact hr

example (m : Nat → Byte) : (dmaRead .ok strict 2 m { bytes := [], closed := true, lim := [] } 1 exFive).res = .err EINVAL :=
  (C124_strict .ok (fun _ => rfl) strict 2 m 1 exFive (by decide) (strict_refuses m)).1.1

end Verif.Wire.Pipe
