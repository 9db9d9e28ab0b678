import Verif.Wire.Model
import Mathlib.Tactic.ByContra

/-!
# Framing of requests and replies: C47 (reading side), C48, C49 -/

namespace Verif.Wire
open Verif
open Verif.Dma (Fd)

/-! ## Headers as bytes -/

theorem Hdr.bytes_length (h : Hdr) : h.bytes.length = 16 := by
  simp [Hdr.bytes, enc_length]

/-- The fields fit their C types. -/
structure Hdr.Fits (h : Hdr) : Prop where
  id : h.id < 65536
  cmd : h.cmd < 65536
  size : h.size < U32
  flags : h.flags < U32
  err : h.err < U32

theorem Hdr.ofBytes_bytes (h : Hdr) (hf : h.Fits) (rest : List Byte) : Hdr.ofBytes (h.bytes ++ rest) = h := by
  have p2 : (256 : Nat) ^ 2 = 65536 := by decide
  have p4 : (256 : Nat) ^ 4 = U32 := by decide
  have e : ∀ (a b c d f g : List Byte), (a ++ b ++ c ++ d ++ f) ++ g = a ++ (b ++ (c ++ (d ++ (f ++ g)))) := by
    intros; simp [List.append_assoc]
  have h0 : leAt (h.bytes ++ rest) 0 2 = h.id := by
    have := leAt_field [] (enc 2 h.cmd ++ (enc 4 h.size ++ (enc 4 h.flags ++ (enc 4 h.err ++ rest)))) 2 h.id 0 rfl
      (by rw [p2]; exact hf.id)
    rw [Hdr.bytes, e]; simpa using this
  have h1 : leAt (h.bytes ++ rest) 2 2 = h.cmd := by
    have := leAt_field (enc 2 h.id) (enc 4 h.size ++ (enc 4 h.flags ++ (enc 4 h.err ++ rest))) 2 h.cmd 2
      (by simp [enc_length]) (by rw [p2]; exact hf.cmd)
    rw [Hdr.bytes, e]; simpa [List.append_assoc] using this
  have h2 : leAt (h.bytes ++ rest) 4 4 = h.size := by
    have := leAt_field (enc 2 h.id ++ enc 2 h.cmd) (enc 4 h.flags ++ (enc 4 h.err ++ rest)) 4 h.size 4
      (by simp [enc_length]) (by rw [p4]; exact hf.size)
    rw [Hdr.bytes, e]; simpa [List.append_assoc] using this
  have h3 : leAt (h.bytes ++ rest) 8 4 = h.flags := by
    have := leAt_field (enc 2 h.id ++ enc 2 h.cmd ++ enc 4 h.size) (enc 4 h.err ++ rest) 4 h.flags 8
      (by simp [enc_length]) (by rw [p4]; exact hf.flags)
    rw [Hdr.bytes, e]; simpa [List.append_assoc] using this
  have h4 : leAt (h.bytes ++ rest) 12 4 = h.err := by
    have := leAt_field (enc 2 h.id ++ enc 2 h.cmd ++ enc 4 h.size ++ enc 4 h.flags) rest 4 h.err 12
      (by simp [enc_length]) (by rw [p4]; exact hf.err)
    rw [Hdr.bytes, e]; simpa [List.append_assoc] using this
  simp only [Hdr.ofBytes, h0, h1, h2, h3, h4]

theorem Hdr.fits_ofBytes (b : List Byte) : (Hdr.ofBytes b).Fits where
  id := leAt_lt b 2 0
  cmd := leAt_lt b 2 2
  size := leAt_lt b 4 4
  flags := leAt_lt b 4 8
  err := leAt_lt b 4 12

/-! ## Receiving -/

theorem recv_full (a b : List Cell) (closed : Bool) (len : Nat) (ha : a.length = len) (hl : 0 < len) :
    ({ cells := a ++ b, closed, lim := [] } : Sock).recv len =
      (.data a, { cells := b, closed, lim := [] }) := by
  have hne : a ++ b ≠ [] := by
    intro h
    have := congrArg List.length h
    rw [List.length_append, List.length_nil] at this; omega
  have hm : ({ cells := a ++ b, closed, lim := [] } : Sock).amount len = len := by
    simp [Sock.amount]; omega
  unfold Sock.recv
  rw [if_neg hne, hm]
  subst ha
  simp [Sock.advance]

/-- A receive never returns more than asked for and hands out the front of the stream. -/
theorem recv_data {s s' : Sock} {len : Nat} {cells : List Cell} (h : s.recv len = (.data cells, s')) :
    cells.length ≤ len ∧ s.cells = cells ++ s'.cells := by
  unfold Sock.recv at h
  by_cases hc : s.cells = []
  · rw [if_pos hc] at h
    by_cases hk : s.closed = true
    · simp [hk] at h
    · simp [hk] at h
  · rw [if_neg hc] at h
    simp only [Prod.mk.injEq, Recv.data.injEq] at h
    obtain ⟨h1, h2⟩ := h
    subst h1; subst h2
    constructor
    · simp [Sock.amount]; omega
    · simp [Sock.advance]

/-- **C47** (reading side).  A request is handed on for execution only if the first 16 bytes of the stream are a
header of type command whose size is at most the maximum message size and at least the header size (larger,
except for device reset), and its payload is exactly the `size - 16` bytes that follow. -/
theorem C47_read {s s' : Sock} {h : Hdr} {body : List Byte} {fds : List Fd} (hn : next s = (.req h body fds, s')) :
    ∃ hb, hb.length = 16 ∧ h = Hdr.ofBytes hb ∧ s.cells.map Prod.fst = hb ++ body ++ s'.cells.map Prod.fst ∧
      h.flags % 16 = 0 ∧ 16 ≤ h.size ∧ h.size ≤ 1048576 + 32 ∧ (h.size = 16 → h.cmd = 13) ∧
      body.length = h.size - 16 := by
  unfold next getHeader at hn
  cases hr : s.recv HDR with
  | mk r s1 =>
    rw [hr] at hn
    cases r with
    | again => simp at hn
    | eof => simp at hn
    | data cells =>
      dsimp only at hn
      obtain ⟨hle, hcat⟩ := recv_data hr
      by_cases h1 : cells.length < HDR
      · rw [if_pos h1] at hn; simp at hn
      · rw [if_neg h1] at hn
        have hlen : cells.length = 16 := by simp only [HDR] at *; omega
        by_cases h2 : (cellFds cells).length > MAX_FDS
        · rw [if_pos h2] at hn; simp at hn
        · rw [if_neg h2] at hn
          dsimp only at hn
          generalize hh : Hdr.ofBytes (cells.map Prod.fst) = hd at hn
          by_cases h3 : validHeader hd = false
          · rw [if_pos h3] at hn; simp at hn
          · rw [if_neg h3] at hn
            have hv : validHeader hd = true := by simpa using h3
            unfold validHeader at hv
            have t1 : hd.type = TYPE_COMMAND := by
              by_contra hx; rw [if_pos hx] at hv; cases hv
            rw [if_neg (by simp [t1])] at hv
            have t2 : ¬ hd.size < HDR := by
              intro hx; rw [if_pos hx] at hv; cases hv
            rw [if_neg t2] at hv
            have t3 : ¬ (hd.size = HDR ∧ hd.cmd ≠ CMD_RESET) := by
              intro hx; rw [if_pos hx] at hv; cases hv
            rw [if_neg t3] at hv
            have t4 : ¬ hd.size > MAX_MSG := by
              intro hx; rw [if_pos hx] at hv; cases hv
            have tt : hd.flags % 16 = 0 := t1
            simp only [HDR, MAX_MSG, Region.MAX_XFER, CMD_RESET] at t2 t3 t4
            by_cases h4 : hd.size - HDR > 0
            · rw [if_pos h4] at hn
              unfold recvBody at hn
              cases hr2 : s1.recv (hd.size - HDR) with
              | mk r2 s2 =>
                rw [hr2] at hn
                cases r2 with
                | again => simp at hn
                | eof => simp at hn
                | data cells2 =>
                  dsimp only at hn
                  obtain ⟨_, hcat2⟩ := recv_data hr2
                  by_cases h5 : cells2.length ≠ hd.size - HDR
                  · rw [if_pos h5] at hn; simp at hn
                  · rw [if_neg h5] at hn
                    simp only [Prod.mk.injEq, In.req.injEq] at hn
                    obtain ⟨⟨e1, e2, _⟩, e4⟩ := hn
                    subst e1; subst e2; subst e4
                    refine ⟨cells.map Prod.fst, by simpa using hlen, hh.symm, ?_, tt, by omega, by omega, ?_, ?_⟩
                    · rw [hcat, hcat2]; simp
                    · intro hx; by_contra hy; exact t3 ⟨hx, hy⟩
                    · simp only [HDR] at h5; simp; omega
            · rw [if_neg h4] at hn
              simp only [Prod.mk.injEq, In.req.injEq] at hn
              obtain ⟨⟨e1, e2, _⟩, e4⟩ := hn
              subst e1; subst e2; subst e4
              refine ⟨cells.map Prod.fst, by simpa using hlen, hh.symm, ?_, tt, by omega, by omega, ?_, ?_⟩
              · rw [hcat]; simp
              · intro hx; by_contra hy; exact t3 ⟨hx, hy⟩
              · simp only [HDR] at h4; simp; omega

/-! ## Streams of well-formed requests -/

/-- A request as the client means it. -/
structure Msg where
  h : Hdr
  body : List Byte
  fds : List Fd

/-- Well-formed: fields in range, type command, size equal to the bytes sent, not too large, payload present unless
it is a device reset. -/
structure Msg.Ok (m : Msg) : Prop where
  fits : m.h.Fits
  type : m.h.flags % 16 = 0
  size : m.h.size = 16 + m.body.length
  max : m.body.length ≤ 1048576 + 16
  payload : m.body ≠ [] ∨ m.h.cmd = 13
  fds : m.fds.length ≤ 1024

/-- The bytes the client writes, the descriptors travelling with the first. -/
def Msg.cells (m : Msg) : List Cell :=
  match m.h.bytes ++ m.body with
  | [] => []
  | b :: bs => (b, m.fds) :: bs.map (fun b => (b, []))

theorem Msg.cells_split (m : Msg) : ∃ b bs, m.h.bytes = b :: bs ∧ bs.length = 15 ∧
    m.cells = ((b, m.fds) :: bs.map (fun b => (b, []))) ++ m.body.map (fun b => (b, [])) := by
  have hl := m.h.bytes_length
  cases hb : m.h.bytes with
  | nil => rw [hb] at hl; simp at hl
  | cons b bs =>
    refine ⟨b, bs, rfl, ?_, ?_⟩
    · rw [hb] at hl; simp at hl; exact hl
    · simp [Msg.cells, hb]

theorem cellFds_head (b : Byte) (fds : List Fd) (bs : List Byte) :
    cellFds ((b, fds) :: bs.map (fun b => (b, []))) = fds := by
  unfold cellFds
  simp only [List.map_cons, List.map_map, List.find?_cons]
  cases fds with
  | nil =>
    simp only [List.isEmpty_nil, Bool.not_true]
    have : (List.map (Prod.snd ∘ fun b : Byte => (b, ([] : List Fd))) bs).find? (fun l => !l.isEmpty) = none := by
      rw [List.find?_eq_none]
      intro x hx
      simp only [List.mem_map, Function.comp] at hx
      obtain ⟨_, _, rfl⟩ := hx
      simp
    rw [this]; rfl
  | cons f fs => simp

theorem map_fst_pair (l : List Byte) : (l.map (fun b => ((b, []) : Cell))).map Prod.fst = l := by
  simp [Function.comp_def]

theorem valid_of_ok {m : Msg} (hm : m.Ok) : validHeader m.h = true := by
  have h1 : m.h.type = TYPE_COMMAND := hm.type
  have h2 : ¬ m.h.size < HDR := by rw [hm.size]; simp [HDR]
  have h3 : ¬ (m.h.size = HDR ∧ m.h.cmd ≠ CMD_RESET) := by
    rintro ⟨a, b⟩
    rcases hm.payload with h | h
    · apply h
      apply List.eq_nil_of_length_eq_zero
      rw [hm.size] at a; simp only [HDR] at a; omega
    · exact b h
  have h4 : ¬ m.h.size > MAX_MSG := by
    rw [hm.size]; have := hm.max; simp only [MAX_MSG, Region.MAX_XFER]; omega
  unfold validHeader
  rw [if_neg (by simp [h1]), if_neg h2, if_neg h3, if_neg h4]

/-- One well-formed request in front of anything. -/
theorem next_msg (m : Msg) (hm : m.Ok) (rest : List Cell) (closed : Bool) :
    next { cells := m.cells ++ rest, closed, lim := [] } =
      (.req m.h m.body m.fds, { cells := rest, closed, lim := [] }) := by
  obtain ⟨b, bs, hb, hl, hc⟩ := m.cells_split
  have hr := recv_full ((b, m.fds) :: bs.map (fun b => (b, []))) (m.body.map (fun b => (b, [])) ++ rest) closed HDR
    (by simp [hl, HDR]) (by decide)
  have hbytes : (((b, m.fds) :: bs.map (fun b => ((b, []) : Cell))).map Prod.fst) = m.h.bytes ++ [] := by
    rw [List.map_cons, map_fst_pair, hb]; simp
  have hg : getHeader { cells := m.cells ++ rest, closed, lim := [] } =
      (.ok (m.h, m.fds), { cells := m.body.map (fun b => (b, [])) ++ rest, closed, lim := [] }) := by
    unfold getHeader
    rw [hc, List.append_assoc, hr]
    dsimp only
    rw [if_neg (by simp [hl, HDR]), cellFds_head, if_neg (by have := hm.fds; simp only [MAX_FDS]; omega), hbytes,
      Hdr.ofBytes_bytes m.h hm.fits]
  unfold next
  rw [hg]
  dsimp only
  rw [if_neg (by rw [valid_of_ok hm]; simp)]
  have hs : m.h.size - HDR = m.body.length := by rw [hm.size]; simp [HDR]
  rw [hs]
  by_cases hz : m.body.length > 0
  · rw [if_pos hz]
    unfold recvBody
    rw [recv_full (m.body.map (fun b => (b, []))) rest closed m.body.length (by simp) hz]
    dsimp only
    rw [if_neg (by simp), map_fst_pair]
  · rw [if_neg hz]
    have : m.body = [] := List.eq_nil_of_length_eq_zero (by omega)
    simp [this]

/-- The socket after `n` reads. -/
def after : Nat → Sock → Sock
  | 0, s => s
  | n + 1, s => after n (next s).2

/-- **C48**.  On a stream of well-formed requests, whatever their payloads and whatever follows, the server reads
exactly those requests, in order, each with its own header, payload and descriptors, and then stands at what
follows (the socket hands over what is asked for, `lim := []`). -/
theorem C48_frames (ms : List Msg) (hms : ∀ m ∈ ms, m.Ok) (rest : List Cell) (closed : Bool) :
    reads ms.length { cells := ms.flatMap Msg.cells ++ rest, closed, lim := [] } =
        ms.map (fun m => .req m.h m.body m.fds) ∧
      after ms.length { cells := ms.flatMap Msg.cells ++ rest, closed, lim := [] } =
        { cells := rest, closed, lim := [] } := by
  induction ms with
  | nil => exact ⟨rfl, by simp [after]⟩
  | cons m ms ih =>
    obtain ⟨i1, i2⟩ := ih (fun x hx => hms x (List.mem_cons_of_mem _ hx))
    have hn := next_msg m (hms m List.mem_cons_self) (ms.flatMap Msg.cells ++ rest) closed
    simp only [List.flatMap_cons, List.append_assoc, List.length_cons, reads, after, List.map_cons]
    rw [hn]
    exact ⟨by rw [i1], i2⟩

/-- A header the server must refuse. -/
def Malformed (h : Hdr) : Prop :=
  h.flags % 16 ≠ 0 ∨ h.size < 16 ∨ (h.size = 16 ∧ h.cmd ≠ 13) ∨ 1048576 + 32 < h.size

theorem validHeader_false {h : Hdr} (hm : Malformed h) : validHeader h = false := by
  unfold validHeader
  by_cases h1 : h.type ≠ TYPE_COMMAND
  · rw [if_pos h1]
  rw [if_neg h1]
  by_cases h2 : h.size < HDR
  · rw [if_pos h2]
  rw [if_neg h2]
  by_cases h3 : h.size = HDR ∧ h.cmd ≠ CMD_RESET
  · rw [if_pos h3]
  rw [if_neg h3]
  by_cases h4 : h.size > MAX_MSG
  · rw [if_pos h4]
  exfalso
  simp only [Hdr.type, TYPE_COMMAND, HDR, CMD_RESET, MAX_MSG, Region.MAX_XFER] at h1 h2 h3 h4
  rcases hm with h | h | h | h
  · exact h1 h
  · omega
  · exact h3 h
  · omega

/-- **C47** (reading side) and the boundary of C48: a malformed header is refused with `EINVAL`; the server has then
consumed only the header, and whatever the client sent as the body of that request is read as the next header. -/
theorem C47_refuses (hb : List Byte) (body : List Cell) (closed : Bool) (hl : hb.length = 16)
    (hm : Malformed (Hdr.ofBytes hb)) :
    next { cells := hb.map (fun b => (b, [])) ++ body, closed, lim := [] } =
      (.bad (Hdr.ofBytes hb) [] EINVAL, { cells := body, closed, lim := [] }) := by
  have hr := recv_full (hb.map (fun b => (b, []))) body closed HDR (by simp [hl, HDR]) (by decide)
  have hcf : cellFds (hb.map (fun b => ((b, []) : Cell))) = [] := by
    cases hb with
    | nil => simp at hl
    | cons b bs => rw [List.map_cons, cellFds_head]
  unfold next getHeader
  rw [hr]
  dsimp only
  rw [if_neg (by simp [hl, HDR]), hcf, map_fst_pair, if_neg (by simp)]
  dsimp only
  rw [if_pos (validHeader_false hm)]

/-- C48, the boundary: the body of a refused request is executed as a request of its own: a message of a type the
server does not take (here a reply), whose payload `m` is itself a well-formed message, makes the server handle
`m`. -/
theorem C48_violated (hb : List Byte) (hl : hb.length = 16) (hm : Malformed (Hdr.ofBytes hb)) (m : Msg)
    (hok : m.Ok) (hfd : m.fds = []) (rest : List Cell) (closed : Bool) :
    reads 2 { cells := (hb ++ m.h.bytes ++ m.body).map (fun b => (b, [])) ++ rest, closed, lim := [] } =
      [.bad (Hdr.ofBytes hb) [] EINVAL, .req m.h m.body []] := by
  have hc : m.cells = (m.h.bytes ++ m.body).map (fun b => (b, [])) := by
    obtain ⟨b, bs, e, _, hc⟩ := m.cells_split
    rw [hc, e, hfd]; simp
  have e : (hb ++ m.h.bytes ++ m.body).map (fun b => ((b, []) : Cell)) ++ rest =
      hb.map (fun b => (b, [])) ++ (m.cells ++ rest) := by
    rw [hc]; simp [List.append_assoc]
  simp only [reads]
  rw [e, C47_refuses hb (m.cells ++ rest) closed hl hm, next_msg m hok rest closed, hfd]

/-- C48, the other boundary: a payload that arrives in two pieces is refused although request and payload are well
formed, and its second piece is read as the next header. -/
theorem C48_short (m : Msg) (hm : m.Ok) (rest : List Cell) (closed : Bool) (k : Nat) (hk : 0 < k)
    (hk2 : k < m.body.length) :
    next { cells := m.cells ++ rest, closed, lim := [16, k] } =
      (.bad m.h m.fds EINVAL,
        { cells := (m.body.drop k).map (fun b => (b, [])) ++ rest, closed, lim := [] }) := by
  obtain ⟨b, bs, hb, hl, hc⟩ := m.cells_split
  have hbytes : (((b, m.fds) :: bs.map (fun b => ((b, []) : Cell))).map Prod.fst) = m.h.bytes ++ [] := by
    rw [List.map_cons, map_fst_pair, hb]; simp
  have hr : ({ cells := m.cells ++ rest, closed, lim := [16, k] } : Sock).recv HDR =
      (.data ((b, m.fds) :: bs.map (fun b => (b, []))),
        { cells := m.body.map (fun b => (b, [])) ++ rest, closed, lim := [k] }) := by
    unfold Sock.recv
    have hne : m.cells ++ rest ≠ [] := by rw [hc]; simp
    rw [if_neg hne]
    have ha : ({ cells := m.cells ++ rest, closed, lim := [16, k] } : Sock).amount HDR = 16 := by
      simp [Sock.amount, HDR, hc, hl]
    rw [ha, hc, List.append_assoc]
    have hl16 : ((b, m.fds) :: bs.map (fun b => ((b, []) : Cell))).length = 16 := by simp [hl]
    simp only [Sock.advance, List.tail_cons]
    rw [List.take_left' hl16, List.drop_left' hl16]
  have hg : getHeader { cells := m.cells ++ rest, closed, lim := [16, k] } =
      (.ok (m.h, m.fds), { cells := m.body.map (fun b => (b, [])) ++ rest, closed, lim := [k] }) := by
    unfold getHeader
    rw [hr]
    dsimp only
    rw [if_neg (by simp [hl, HDR]), cellFds_head, if_neg (by have := hm.fds; simp only [MAX_FDS]; omega), hbytes,
      Hdr.ofBytes_bytes m.h hm.fits]
  unfold next
  rw [hg]
  dsimp only
  rw [if_neg (by rw [valid_of_ok hm]; simp)]
  have hs : m.h.size - HDR = m.body.length := by rw [hm.size]; simp [HDR]
  rw [hs, if_pos (by omega)]
  unfold recvBody Sock.recv
  have hne : m.body.map (fun b => ((b, []) : Cell)) ++ rest ≠ [] := by
    intro h
    have := congrArg List.length h
    rw [List.length_append, List.length_map, List.length_nil] at this; omega
  have hamt : ({ cells := m.body.map (fun b => (b, [])) ++ rest, closed, lim := [k] } : Sock).amount m.body.length = k := by
    simp [Sock.amount]; omega
  rw [if_neg hne, hamt]
  dsimp only
  have hlen : (List.take k (m.body.map (fun b => ((b, []) : Cell)) ++ rest)).length ≠ m.body.length := by
    simp; omega
  rw [if_pos hlen]
  simp only [Sock.advance, List.tail_cons]
  rw [List.drop_append_of_le_length (by simp; omega), List.map_drop]

/-! ## Replies -/

/-- The socket takes everything. -/
def Healthy (snd : Send) : Prop := ∀ n, snd n = .ok n

/-- What a client reads off a reply. -/
structure IsReply (req : Hdr) (err : Nat) (body : List Byte) (w : List Byte) : Prop where
  bytes : ∃ hb, hb.length = 16 ∧ w = hb ++ body
  id : (Hdr.ofBytes w).id = req.id
  cmd : (Hdr.ofBytes w).cmd = req.cmd
  type : (Hdr.ofBytes w).flags % 16 = 1
  error : (Hdr.ofBytes w).flags.testBit 5 = decide (err ≠ 0)
  errno : (Hdr.ofBytes w).err = err
  size : (Hdr.ofBytes w).size = w.length

theorem mkHdr_fits (id cmd : Nat) (r : Bool) (n err : Nat) (h1 : id < 65536) (h2 : cmd < 65536) (h3 : err < U32) :
    (mkHdr id cmd r n err).Fits where
  id := h1
  cmd := h2
  size := Nat.mod_lt _ (by decide)
  flags := by
    simp only [mkHdr, TYPE_REPLY, F_ERROR, TYPE_COMMAND]
    split
    · split <;> decide
    · decide
  err := by
    simp only [mkHdr]
    split
    · exact h3
    · decide

/-- **C49**.  The bytes of a reply: the request's id and command, type reply, error flag and number set exactly when
the handler failed, a size field equal to the number of bytes sent, and the body unchanged. -/
theorem C49_reply (snd : Send) (hs : Healthy snd) (req : Hdr) (hr : req.Fits) (err : Nat) (he : err < U32)
    (body : List Byte) (hb : body.length + 16 < U32) (fds : List Fd) :
    ∃ w, reply snd req (.bytes body) (fds.map some) err = (.ok (), [{ bytes := w, fds }]) ∧ IsReply req err body w := by
  have hsz : (mkHdr req.id req.cmd true body.length err).size = 16 + body.length := by
    simp only [mkHdr, HDR]; rw [Nat.mod_eq_of_lt (by omega)]
  have hf := mkHdr_fits req.id req.cmd true body.length err hr.id hr.cmd he
  refine ⟨(mkHdr req.id req.cmd true body.length err).bytes ++ body, ?_, ?_⟩
  · unfold reply sendIovec
    dsimp only [Body.len]
    unfold sendIovec.go
    have h1 : (fds.map some).any Option.isNone = false := by simp
    have h2 : (fds.map some).filterMap id = fds := by simp
    have h3 : (mkHdr req.id req.cmd true body.length err).bytes.length = 16 := Hdr.bytes_length _
    rw [h1, if_neg (by simp)]
    dsimp only
    rw [hs]
    dsimp only
    rw [hsz, if_neg (by simp [h3]), h2, List.take_length]
  · have ho := Hdr.ofBytes_bytes _ hf body
    refine ⟨⟨_, Hdr.bytes_length _, rfl⟩, ?_, ?_, ?_, ?_, ?_, ?_⟩
    · rw [ho]; rfl
    · rw [ho]; rfl
    · rw [ho]
      by_cases h0 : err = 0
      · simp [mkHdr, h0, TYPE_REPLY]
      · simp [mkHdr, h0, TYPE_REPLY, F_ERROR] <;> decide
    · rw [ho]
      by_cases h0 : err = 0
      · simp only [mkHdr, h0, TYPE_REPLY]; decide
      · simp [mkHdr, h0, TYPE_REPLY, F_ERROR] <;> decide
    · rw [ho]
      by_cases h0 : err = 0
      · simp [mkHdr, h0]
      · simp [mkHdr, h0]
    · rw [ho, hsz]
      simp [Hdr.bytes_length]

end Verif.Wire
