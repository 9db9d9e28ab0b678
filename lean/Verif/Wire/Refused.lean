import Verif.Wire.Faithful

/-! # What the device is told when the client does not serve a transfer (C52), and the version request on the wire (C50) -/

namespace Verif.Wire
open Verif
open Verif.Dma (Fd)

/-! ## C52 -/

/-- The `errno` for an answer that is no success: `hb` are the 16 bytes of its header, `id` the number of the request. -/
inductive Refusal (hb : List Byte) (id : Nat) : Nat → Prop
  /-- an answer to another request -/
  | other : (Hdr.ofBytes hb).id ≠ id → Refusal hb id EPROTO
  /-- not an answer -/
  | type : (Hdr.ofBytes hb).id = id → (Hdr.ofBytes hb).flags % 16 ≠ 1 → Refusal hb id EINVAL
  /-- an error number -/
  | error {e : Nat} : (Hdr.ofBytes hb).id = id → (Hdr.ofBytes hb).flags % 16 = 1 → (Hdr.ofBytes hb).flags.testBit 5 = true →
      (Hdr.ofBytes hb).err = e → 1 ≤ e → e ≤ 4096 → Refusal hb id e
  /-- an error without a valid number -/
  | bad : (Hdr.ofBytes hb).id = id → (Hdr.ofBytes hb).flags % 16 = 1 → (Hdr.ofBytes hb).flags.testBit 5 = true →
      ((Hdr.ofBytes hb).err = 0 ∨ 4096 < (Hdr.ofBytes hb).err) → Refusal hb id EINVAL
  /-- a size that cannot be -/
  | size : (Hdr.ofBytes hb).id = id → (Hdr.ofBytes hb).flags % 16 = 1 → (Hdr.ofBytes hb).flags.testBit 5 = false →
      ((Hdr.ofBytes hb).size < 16 ∨ 1048576 + 32 < (Hdr.ofBytes hb).size) → Refusal hb id EINVAL

theorem recvReply_refused {hb rest : List Byte} (hl : hb.length = 16) {id e : Nat} (hr : Refusal hb id e) (len : Nat) :
    recvReply { cells := plain (hb ++ rest), closed := true, lim := [] } id len =
      (.error e, { cells := plain rest, closed := true, lim := [] }) := by
  have hrc := recv_full (plain hb) (plain rest) true HDR (by rw [plain_length, hl]; rfl) (by decide)
  unfold recvReply
  rw [plain_append, hrc]
  dsimp only
  rw [if_neg (by rw [plain_length, hl]; decide), plain_fds, if_neg (by simp), plain_fst]
  cases hr with
  | other h => exact if_pos h
  | type h1 h2 => exact (if_neg (not_not_intro h1)).trans (if_pos h2)
  | error h1 h2 h3 h0 h4 h5 =>
    subst h0
    refine (if_neg (not_not_intro h1)).trans ((if_neg (not_not_intro h2)).trans ((if_pos h3).trans ?_))
    rw [if_neg (by simp only [MAX_ERROR_NO]; omega)]
  | bad h1 h2 h3 h4 =>
    refine (if_neg (not_not_intro h1)).trans ((if_neg (not_not_intro h2)).trans ((if_pos h3).trans ?_))
    rw [if_pos (by simp only [MAX_ERROR_NO]; omega)]
  | size h1 h2 h3 h4 =>
    refine (if_neg (not_not_intro h1)).trans ((if_neg (not_not_intro h2)).trans ((if_neg ?_).trans (if_pos h4)))
    unfold Hdr.error
    rw [h3]
    simp

theorem recvReply_closed (id len : Nat) :
    recvReply { cells := plain [], closed := true, lim := [] } id len =
      (.error ENOMSG, { cells := [], closed := true, lim := [] }) := rfl

/-- The outcome a device sees for an answer that is no success; `none`: the client closed the connection. -/
inductive Outcome (id : Nat) : Option (List Byte) → Nat → Prop
  | closed : Outcome id none ENOTCONN
  | lost {hb rest : List Byte} {e : Nat} : hb.length = 16 → Refusal hb id e → e = ENOMSG ∨ e = ECONNRESET →
      Outcome id (some (hb ++ rest)) ENOTCONN
  | failed {hb rest : List Byte} {e : Nat} : hb.length = 16 → Refusal hb id e → ¬ (e = ENOMSG ∨ e = ECONNRESET) →
      Outcome id (some (hb ++ rest)) e

theorem exchange_refused {σ : Type} (snd : Send) (hs : Healthy snd) (p : Peer σ) (st : σ) (id cmd len : Nat)
    (data : List Byte) (hd : data.length + 16 < U32) {e : Nat}
    (ho : Outcome (id % 65536) (p st ((reqHdr id cmd data.length).bytes ++ data)).2 e) :
    ∃ x, (exchange snd p st [] (id % 65536) cmd data len).res = .error x ∧ xferErr x = e ∧
      (exchange snd p st [] (id % 65536) cmd data len).sent =
        [{ bytes := (reqHdr id cmd data.length).bytes ++ data, fds := [] }] := by
  generalize hp : p st ((reqHdr id cmd data.length).bytes ++ data) = q at ho
  obtain ⟨st', out⟩ := q
  dsimp only at ho
  cases ho with
  | closed =>
    rw [exchange_eq snd hs p st st' [] id cmd len data none _ _ hd hp (recvReply_closed _ _)]
    exact ⟨_, rfl, rfl, rfl⟩
  | lost hl hr he =>
    rw [exchange_eq snd hs p st st' [] id cmd len data _ _ _ hd hp (recvReply_refused hl hr len)]
    exact ⟨_, rfl, if_pos he, rfl⟩
  | failed hl hr he =>
    rw [exchange_eq snd hs p st st' [] id cmd len data _ _ _ hd hp (recvReply_refused hl hr len)]
    exact ⟨_, rfl, if_neg he, rfl⟩

/-- **C52**, a read that the client does not serve fails with the client's error; no data is delivered and no further
request is sent. (Stated for the first chunk.) -/
theorem C52_read_refused {σ : Type} (snd : Send) (hs : Healthy snd) (p : Peer σ) (max : Nat) (st : σ) (id : Nat)
    (sg : Dma.Sg) (hl : 0 < sg.length) {e : Nat}
    (ho : Outcome (id % 65536)
      (p st ((reqHdr id 11 16).bytes ++ access (add64 sg.dmaAddr sg.offset) (min sg.length max))).2 e) :
    (dmaRead snd p max st [] id sg).res = .err e ∧ (dmaRead snd p max st [] id sg).data = [] ∧
      (dmaRead snd p max st [] id sg).sent.length = 1 := by
  have hl' := access_length (add64 sg.dmaAddr sg.offset) (min sg.length max)
  obtain ⟨x, h1, h2, h3⟩ := exchange_refused snd hs p st id 11 (min sg.length max + 16)
    (access (add64 sg.dmaAddr sg.offset) (min sg.length max)) (by rw [hl']; decide) (by rw [hl']; exact ho)
  unfold dmaRead readLoop
  have ha : add64 (add64 sg.dmaAddr sg.offset) 0 = add64 sg.dmaAddr sg.offset := by
    simp only [add64, Nat.add_zero, Nat.mod_mod]
  rw [if_neg (by omega)]
  dsimp only
  rw [ha, show CMD_DMA_READ = 11 from rfl, h1]
  dsimp only
  rw [h2, h3]
  exact ⟨rfl, rfl, rfl⟩

/-- **C52**, the same for a write. -/
theorem C52_write_refused {σ : Type} (snd : Send) (hs : Healthy snd) (p : Peer σ) (max : Nat) (st : σ) (id : Nat)
    (sg : Dma.Sg) (hl : 0 < sg.length) (hw : sg.writeable = true) (data : List Byte) (hd : data.length = sg.length)
    (hb : min sg.length max + 32 < U32) {e : Nat}
    (ho : Outcome (id % 65536)
      (p st ((reqHdr id 12 (16 + min sg.length max)).bytes ++
        (access (add64 sg.dmaAddr sg.offset) (min sg.length max) ++ data.take max))).2 e) :
    (dmaWrite snd p max st [] id sg data).res = .err e ∧ (dmaWrite snd p max st [] id sg data).sent.length = 1 := by
  have ht : (data.drop 0).take (min sg.length max) = data.take max := by
    rw [List.drop_zero, ← hd]
    rcases Nat.le_total data.length max with h | h
    · rw [Nat.min_eq_left h, List.take_length, List.take_of_length_le h]
    · rw [Nat.min_eq_right h]
  have hl' : (access (add64 sg.dmaAddr sg.offset) (min sg.length max) ++ data.take max).length = 16 + min sg.length max := by
    rw [List.length_append, access_length, List.length_take, hd]
    omega
  obtain ⟨x, h1, h2, h3⟩ := exchange_refused snd hs p st id 12 16
    (access (add64 sg.dmaAddr sg.offset) (min sg.length max) ++ data.take max) (by rw [hl']; omega) (by rw [hl']; exact ho)
  unfold dmaWrite
  rw [if_neg (by rw [hw]; simp)]
  unfold writeLoop
  have ha : add64 (add64 sg.dmaAddr sg.offset) 0 = add64 sg.dmaAddr sg.offset := by
    simp only [add64, Nat.add_zero, Nat.mod_mod]
  rw [if_neg (by omega)]
  dsimp only
  rw [ha, ht, show CMD_DMA_WRITE = 12 from rfl, h1]
  dsimp only
  rw [h2, h3]
  exact ⟨rfl, rfl⟩

/-! ## C50: the version request on the wire -/

/-- **C50**: what is negotiated about is the first message on the connection, whole and without descriptors. -/
theorem C50_received {s s' : Sock} {h : Hdr} {body : List Byte} (hn : recvMsg s = (.ok (h, body), s')) :
    ∃ hc bc, s.cells = hc ++ bc ++ s'.cells ∧ hc.length = 16 ∧ cellFds hc = [] ∧ h = Hdr.ofBytes (hc.map Prod.fst) ∧
      body = bc.map Prod.fst ∧ body.length = h.size - 16 ∧ h.flags % 16 = 0 ∧ 16 ≤ h.size ∧ h.size ≤ 1048576 + 32 := by
  unfold recvMsg at hn
  cases hr : s.recv HDR with
  | mk r s1 =>
    rw [hr] at hn
    cases r with
    | again => simp at hn
    | eof => simp at hn
    | data cells =>
      dsimp only at hn
      obtain ⟨hle, hcat⟩ := recv_data hr
      by_cases h1 : cells.length < HDR
      · rw [if_pos h1] at hn; simp at hn
      rw [if_neg h1] at hn
      have hlen : cells.length = 16 := by simp only [HDR] at *; omega
      by_cases h2 : cellFds cells ≠ []
      · rw [if_pos h2] at hn; simp at hn
      rw [if_neg h2] at hn
      generalize hh : Hdr.ofBytes (cells.map Prod.fst) = hd at hn
      by_cases h3 : hd.type ≠ TYPE_COMMAND
      · rw [if_pos h3] at hn; simp at hn
      rw [if_neg h3] at hn
      by_cases h4 : hd.size < HDR ∨ hd.size > MAX_MSG
      · rw [if_pos h4] at hn; simp at hn
      rw [if_neg h4] at hn
      simp only [HDR, MAX_MSG, Region.MAX_XFER] at h4
      have ht : hd.flags % 16 = 0 := Decidable.not_not.mp h3
      have hfd : cellFds cells = [] := Decidable.not_not.mp h2
      by_cases h5 : hd.size = HDR
      · rw [if_pos h5] at hn
        simp only [Prod.mk.injEq, Except.ok.injEq] at hn
        obtain ⟨⟨e1, e2⟩, e3⟩ := hn
        subst e1 e2 e3
        simp only [HDR] at h5
        exact ⟨cells, [], by rw [hcat]; simp, hlen, hfd, hh.symm, rfl, by rw [h5]; rfl, ht, by omega, by omega⟩
      rw [if_neg h5] at hn
      cases hr2 : ({ s1 with lim := [] } : Sock).recv (hd.size - HDR) with
      | mk r2 s2 =>
        rw [hr2] at hn
        cases r2 with
        | again => simp at hn
        | eof => simp at hn
        | data cells2 =>
          dsimp only at hn
          obtain ⟨_, hcat2⟩ := recv_data hr2
          by_cases h6 : cells2.length ≠ hd.size - HDR
          · rw [if_pos h6] at hn; simp at hn
          rw [if_neg h6] at hn
          simp only [Prod.mk.injEq, Except.ok.injEq] at hn
          obtain ⟨⟨e1, e2⟩, e3⟩ := hn
          subst e1 e2 e3
          have h6 := Decidable.not_not.mp h6
          refine ⟨cells, cells2, ?_, hlen, hfd, hh.symm, rfl, ?_, ht, by omega, by omega⟩
          · rw [hcat, List.append_assoc]
            exact congrArg _ hcat2
          · rw [List.length_map, h6]; rfl

/-- **C50**: and a well-formed one is received as it was sent. -/
theorem C50_delivered {h : Hdr} (hf : h.Fits) (ht : h.flags % 16 = 0) (body rest : List Byte)
    (hs : h.size = 16 + body.length) (hm : body.length ≤ 1048576 + 16) (closed : Bool) :
    recvMsg { cells := plain (h.bytes ++ body ++ rest), closed, lim := [] } =
      (.ok (h, body), { cells := plain rest, closed, lim := [] }) := by
  have hrc := recv_full (plain h.bytes) (plain body ++ plain rest) closed HDR
    (by rw [plain_length, Hdr.bytes_length]; rfl) (by decide)
  have ho : Hdr.ofBytes h.bytes = h := by
    have := Hdr.ofBytes_bytes h hf []
    rwa [List.append_nil] at this
  unfold recvMsg
  rw [List.append_assoc, plain_append, plain_append, hrc]
  dsimp only
  rw [if_neg (by rw [plain_length, Hdr.bytes_length]; decide), plain_fds, if_neg (by simp), plain_fst, ho,
    if_neg (not_not_intro (show h.type = TYPE_COMMAND from ht)), if_neg (by simp only [HDR, MAX_MSG, Region.MAX_XFER]; omega)]
  by_cases hz : h.size = HDR
  · rw [if_pos hz]
    have : body = [] := by
      simp only [HDR] at hz
      exact List.length_eq_zero_iff.mp (by omega)
    subst this
    rfl
  · rw [if_neg hz]
    have hb : body.length = h.size - HDR := by simp only [HDR]; omega
    have hpos : 0 < h.size - HDR := by simp only [HDR] at hz ⊢; omega
    rw [recv_full (plain body) (plain rest) closed (h.size - HDR) (by rw [plain_length, hb]) hpos]
    dsimp only
    rw [if_neg (by rw [plain_length, hb]; simp), plain_fst]

end Verif.Wire
