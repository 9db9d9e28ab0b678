import Verif.Wire.Frame
import Mathlib.Tactic.Ring

/-!
# DMA over the socket: C52, C53 -/

namespace Verif.Wire
open Verif
open Verif.Dma (Fd)

/-- Bytes as the kernel keeps them for the socket. -/
def plain (l : List Byte) : List Cell := l.map (fun b => (b, []))

theorem plain_append (a b : List Byte) : plain (a ++ b) = plain a ++ plain b := by simp [plain]
theorem plain_length (a : List Byte) : (plain a).length = a.length := by simp [plain]
theorem plain_fst (l : List Byte) : (plain l).map Prod.fst = l := map_fst_pair l
theorem plain_fds (l : List Byte) : cellFds (plain l) = [] := by
  cases l with
  | nil => rfl
  | cons b bs => unfold plain; rw [List.map_cons, cellFds_head]

/-- A header of a reply the library accepts for request `id`, whose size field leaves room for `len` bytes. -/
structure GoodHdr (h : Hdr) (id len : Nat) : Prop where
  id : h.id = id
  type : h.flags % 16 = 1
  noError : h.flags.testBit 5 = false
  lo : 16 + len ≤ h.size
  hi : h.size ≤ 1048576 + 32

theorem GoodHdr.type' {h : Hdr} {id len : Nat} (g : GoodHdr h id len) : h.type = TYPE_REPLY := g.type

/-- A good reply in front of anything is taken exactly. -/
theorem recvReply_good (hb body rest : List Byte) (id len : Nat) (hl : hb.length = 16) (hbl : body.length = len)
    (hp : 0 < len) (g : GoodHdr (Hdr.ofBytes hb) id len) :
    recvReply { cells := plain (hb ++ body ++ rest), closed := true, lim := [] } id len =
      (.ok (some body), { cells := plain rest, closed := true, lim := [] }) := by
  have e : plain (hb ++ body ++ rest) = plain hb ++ (plain body ++ plain rest) := by
    simp [plain_append, List.append_assoc]
  have hr := recv_full (plain hb) (plain body ++ plain rest) true HDR (by rw [plain_length, hl]; rfl) (by decide)
  have lo := g.lo
  have hi := g.hi
  unfold recvReply
  rw [e, hr]
  dsimp only
  rw [if_neg (by rw [plain_length, hl]; decide), plain_fds, if_neg (by simp), plain_fst, if_neg (by simp [g.id]),
    if_neg (by simp [g.type']), if_neg (by simp [Hdr.error, g.noError]),
    if_neg (by simp only [HDR, MAX_MSG, Region.MAX_XFER]; omega),
    if_pos (by simp only [HDR]; omega)]
  have hm : min ((Hdr.ofBytes hb).size - HDR) len = len := by simp only [HDR]; omega
  rw [hm, recv_full (plain body) (plain rest) true len (by rw [plain_length, hbl]) hp]
  dsimp only
  rw [if_neg (by rw [plain_length, hbl]; simp), plain_fst]

/-- What `recvReply` accepts: a good reply (the data is in front of the rest), or a reply without payload. -/
theorem recvReply_ok {bytes : List Byte} {id len : Nat} {got : Option (List Byte)} {s' : Sock}
    (h : recvReply { cells := plain bytes, closed := true, lim := [] } id len = (.ok got, s')) :
    (∃ hb body rest, bytes = hb ++ body ++ rest ∧ hb.length = 16 ∧ body.length = len ∧
        GoodHdr (Hdr.ofBytes hb) id len ∧ got = some body ∧ s'.cells = plain rest) ∨ got = none := by
  cases got with
  | none => exact Or.inr rfl
  | some d =>
    left
    unfold recvReply at h
    cases hr : ({ cells := plain bytes, closed := true, lim := [] } : Sock).recv HDR with
    | mk r s1 =>
      rw [hr] at h
      cases r with
      | again => simp at h
      | eof => simp at h
      | data cells =>
        dsimp only at h
        obtain ⟨hle, hcat⟩ := recv_data hr
        by_cases h1 : cells.length < HDR
        · rw [if_pos h1] at h; simp at h
        rw [if_neg h1] at h
        by_cases h2 : cellFds cells ≠ []
        · rw [if_pos h2] at h; simp at h
        rw [if_neg h2] at h
        generalize hh : Hdr.ofBytes (cells.map Prod.fst) = hd at h
        by_cases h3 : hd.id ≠ id
        · rw [if_pos h3] at h; simp at h
        rw [if_neg h3] at h
        by_cases h4 : hd.type ≠ TYPE_REPLY
        · rw [if_pos h4] at h; simp at h
        rw [if_neg h4] at h
        by_cases h5 : hd.error = true
        · rw [if_pos h5] at h; simp at h
        rw [if_neg h5] at h
        by_cases h6 : hd.size < HDR ∨ hd.size > MAX_MSG
        · rw [if_pos h6] at h; simp at h
        rw [if_neg h6] at h
        by_cases h7 : len > 0 ∧ hd.size > HDR
        · rw [if_pos h7] at h
          cases hr2 : ({ s1 with lim := [] } : Sock).recv (min (hd.size - HDR) len) with
          | mk r2 s2 =>
            rw [hr2] at h
            cases r2 with
            | again => simp at h
            | eof => simp at h
            | data cells2 =>
              dsimp only at h
              obtain ⟨hle2, hcat2⟩ := recv_data hr2
              by_cases h8 : cells2.length ≠ len
              · rw [if_pos h8] at h; simp at h
              rw [if_neg h8] at h
              simp only [Prod.mk.injEq, Except.ok.injEq, Option.some.injEq] at h
              obtain ⟨e1, e2⟩ := h
              dsimp only at hcat hcat2
              have hb : bytes = cells.map Prod.fst ++ (cells2.map Prod.fst ++ s2.cells.map Prod.fst) := by
                rw [← plain_fst bytes, hcat, hcat2]; simp
              have hs : s2.cells = plain (s2.cells.map Prod.fst) := by
                have : plain bytes = cells ++ (cells2 ++ s2.cells) := by rw [hcat, hcat2]
                have hall : ∀ c ∈ s2.cells, c = (c.1, []) := by
                  intro c hc
                  have : c ∈ plain bytes := by rw [this]; simp [hc]
                  simp only [plain, List.mem_map] at this
                  obtain ⟨b, _, rfl⟩ := this
                  rfl
                conv_lhs => rw [← List.map_id s2.cells]
                simp only [plain, List.map_map]
                exact List.map_congr_left (fun c hc => hall c hc)
              simp only [HDR, MAX_MSG, Region.MAX_XFER] at *
              refine ⟨cells.map Prod.fst, d, s2.cells.map Prod.fst, ?_, by simp; omega, ?_, ?_, rfl, ?_⟩
              · rw [hb, ← e1]; simp
              · rw [← e1]; simpa using h8
              · rw [hh]
                refine ⟨by simpa using h3, by simpa [Hdr.type, TYPE_REPLY] using h4, by simpa [Hdr.error] using h5, ?_, by omega⟩
                omega
              · rw [← e2]; exact hs
        · rw [if_neg h7] at h; simp at h

/-! ## Requests -/

/-- The header of a request the server sends. -/
def reqHdr (id cmd n : Nat) : Hdr := { id := id % 65536, cmd := cmd, size := 16 + n, flags := 0, err := 0 }

theorem send_request (snd : Send) (hs : Healthy snd) (id cmd : Nat) (data : List Byte)
    (hd : data.length + 16 < U32) :
    sendIovec snd (id % 65536) cmd false (.bytes data) [] 0 =
      (.ok (), [{ bytes := (reqHdr id cmd data.length).bytes ++ data, fds := [] }]) := by
  have hh : mkHdr (id % 65536) cmd false data.length 0 = reqHdr id cmd data.length := by
    simp only [mkHdr, reqHdr, HDR, TYPE_COMMAND]
    rw [Nat.mod_eq_of_lt (show 16 + data.length < U32 by omega)]; simp
  unfold sendIovec
  dsimp only [Body.len]
  unfold sendIovec.go
  rw [hh, if_neg (by simp)]
  dsimp only
  rw [hs]
  dsimp only
  rw [if_neg (by simp [Hdr.bytes_length, reqHdr]), List.take_length]
  rfl

theorem access_length (a n : Nat) : (access a n).length = 16 := by simp [access, enc_length]

theorem leAt_access0 (a n : Nat) (ha : a < U64) (rest : List Byte) : leAt (access a n ++ rest) 0 8 = a := by
  have := leAt_field [] (enc 8 n ++ rest) 8 a 0 rfl (by rw [show (256 : Nat) ^ 8 = U64 by decide]; exact ha)
  simpa [access, List.append_assoc] using this

theorem leAt_access8 (a n : Nat) (hn : n < U64) (rest : List Byte) : leAt (access a n ++ rest) 8 8 = n := by
  have := leAt_field (enc 8 a) rest 8 n 8 (enc_length 8 a) (by rw [show (256 : Nat) ^ 8 = U64 by decide]; exact hn)
  simpa [access, List.append_assoc] using this

/-- Sixteen bytes holding an address and a count. -/
theorem access_of_leAt (d : List Byte) (hd : d.length = 16) : d = access (leAt d 0 8) (leAt d 8 8) := by
  have h1 := enc_leAt d 8 0 (by omega)
  have h2 := enc_leAt d 8 8 (by omega)
  unfold access
  rw [h1, h2, List.drop_zero]
  have : (d.drop 8).take 8 = d.drop 8 := List.take_of_length_le (by simp [hd])
  rw [this, List.take_append_drop]

/-! ## What a successful transfer went through, whatever the client -/

/-- A read of `remaining` bytes starting `count` bytes into the entry, as a sequence of exchanges each answered by a
reply with the request's id, of type reply, without error, whose payload repeats address and count of the request
and goes on with exactly that many bytes.  The last argument is the concatenation of those bytes. -/
inductive Reads {σ : Type} (p : Peer σ) (max base : Nat) :
    σ → List Byte → Nat → Nat → Nat → σ → List Byte → List Byte → Prop
  | done (st : σ) (inq : List Byte) (id count : Nat) : Reads p max base st inq id 0 count st inq []
  | step {st st' st2 : σ} {inq inq' inq2 hb payload rest : List Byte} {out : Option (List Byte)}
      {id remaining count n : Nat} (hr : 0 < remaining) (hn : n = min remaining max)
      (hp : p st ((reqHdr id 11 16).bytes ++ access ((base + count) % 18446744073709551616) n) = (st', out))
      (hin : inq ++ out.getD [] = hb ++ (access ((base + count) % 18446744073709551616) n ++ payload) ++ inq')
      (hhb : hb.length = 16) (hg : GoodHdr (Hdr.ofBytes hb) (id % 65536) (16 + n)) (hpl : payload.length = n)
      (tail : Reads p max base st' inq' (id + 1) (remaining - n) (count + n) st2 inq2 rest) :
      Reads p max base st inq id remaining count st2 inq2 (payload ++ rest)

/-- What the reply buffer may hold before a round: nothing that matches the round's request. -/
def Stale (base count : Nat) (rbuf : List Byte) : Prop :=
  leAt rbuf 8 8 = 0 ∨ ∃ c < count, leAt rbuf 0 8 = add64 base c

theorem Stale.ne {base count n : Nat} {rbuf : List Byte} (h : Stale base count rbuf) (hc : count < U64)
    (hn : 0 < n) : leAt rbuf 0 8 ≠ add64 base count ∨ leAt rbuf 8 8 ≠ n := by
  rcases h with h | ⟨c, hlt, h⟩
  · right; omega
  · left; rw [h]; simp only [add64, U64] at *; omega

theorem readLoop_ok {σ : Type} (snd : Send) (hs : Healthy snd) (p : Peer σ) (max base : Nat) (hm : 0 < max)
    (fuel : Nat) : ∀ (st : σ) (inq : List Byte) (id : Nat) (rbuf : List Byte) (remaining count : Nat)
      (acc : List Byte), remaining + count < U64 → Stale base count rbuf →
      (readLoop snd p max base fuel st inq id rbuf remaining count acc).res = .ok () →
      ∃ data, (readLoop snd p max base fuel st inq id rbuf remaining count acc).data = acc ++ data ∧
        Reads p max base st inq id remaining count
          (readLoop snd p max base fuel st inq id rbuf remaining count acc).peer
          (readLoop snd p max base fuel st inq id rbuf remaining count acc).inq data := by
  induction fuel with
  | zero => intro st inq id rbuf remaining count acc _ _ h; simp [readLoop] at h
  | succ fuel ih =>
    intro st inq id rbuf remaining count acc hlt hst h
    unfold readLoop at h ⊢
    by_cases h0 : remaining = 0
    · subst h0
      rw [if_pos rfl] at h ⊢
      exact ⟨[], by simp, Reads.done ..⟩
    · rw [if_neg h0] at h ⊢
      dsimp only at h ⊢
      generalize hn : min remaining max = n at h ⊢
      have hnpos : 0 < n := by omega
      have hnle : n ≤ remaining := by omega
      have ha : add64 base count < U64 := Nat.mod_lt _ (by decide)
      generalize hx : exchange snd p st inq (id % 65536) CMD_DMA_READ (access (add64 base count) n) (n + 16) = x at h ⊢
      cases hres : x.res with
      | error e => rw [hres] at h; simp at h
      | ok got =>
        rw [hres] at h
        dsimp only at h ⊢
        unfold exchange at hx
        rw [send_request snd hs id CMD_DMA_READ _ (by rw [access_length]; decide)] at hx
        dsimp only at hx
        simp only [List.flatMap_cons, List.flatMap_nil, List.append_nil, access_length] at hx
        generalize hp : p st ((reqHdr id CMD_DMA_READ 16).bytes ++ access (add64 base count) n) = po at hx
        obtain ⟨st', out⟩ := po
        dsimp only at hx
        change (let (r, sock') := recvReply { cells := plain (inq ++ out.getD []), closed := true, lim := [] } (id % 65536) (n + 16);
          ({ peer := st', inq := sock'.cells.map Prod.fst, res := r, sent := _ } : Xchg σ)) = x at hx
        generalize hrr : recvReply { cells := plain (inq ++ out.getD []), closed := true, lim := [] } (id % 65536) (n + 16) = rr at hx
        obtain ⟨r, sock'⟩ := rr
        dsimp only at hx
        subst hx
        dsimp only at hres h ⊢
        subst hres
        rcases recvReply_ok hrr with ⟨hb, body, rest, hbytes, hbl, hbody, hg, hgot, hrest⟩ | hnone
        · subst hgot
          dsimp only at h ⊢
          by_cases hc : leAt (body ++ rbuf.drop body.length) 0 8 ≠ add64 base count ∨ leAt (body ++ rbuf.drop body.length) 8 8 ≠ n
          · rw [if_pos hc] at h; simp at h
          · rw [if_neg hc] at h ⊢
            dsimp only at h ⊢
            have hc' : leAt (body ++ rbuf.drop body.length) 0 8 = add64 base count ∧ leAt (body ++ rbuf.drop body.length) 8 8 = n := by
              rw [not_or, Decidable.not_not, Decidable.not_not] at hc
              exact hc
            have hstale : Stale base (count + n) (body ++ rbuf.drop body.length) :=
              Or.inr ⟨count, by omega, hc'.1⟩
            obtain ⟨data, hd, hR⟩ := ih st' (sock'.cells.map Prod.fst) (id + 1) (body ++ rbuf.drop body.length)
              (remaining - n) (count + n) (acc ++ ((body ++ rbuf.drop body.length).drop 16).take n) (by omega) hstale h
            have hpay : ((body ++ rbuf.drop body.length).drop 16).take n = body.drop 16 := by
              rw [List.drop_append_of_le_length (by omega), List.take_append_of_le_length (by simp; omega),
                List.take_of_length_le (by simp; omega)]
            rw [hpay] at hd hR ⊢
            refine ⟨body.drop 16 ++ data, by rw [hd, List.append_assoc], ?_⟩
            have hacc : body = access (add64 base count) n ++ body.drop 16 := by
              have h1 : leAt (body.take 16) 0 8 = add64 base count := by
                rw [← hc'.1, leAt_append_left _ _ _ _ (by omega)]
                conv_rhs => rw [← List.take_append_drop 16 body]
                rw [leAt_append_left _ _ _ _ (by simp; omega)]
              have h2 : leAt (body.take 16) 8 8 = n := by
                rw [← hc'.2, leAt_append_left _ _ _ _ (by omega)]
                conv_rhs => rw [← List.take_append_drop 16 body]
                rw [leAt_append_left _ _ _ _ (by simp; omega)]
              have := access_of_leAt (body.take 16) (by simp; omega)
              rw [h1, h2] at this
              rw [← this, List.take_append_drop]
            have hinq : sock'.cells.map Prod.fst = rest := by rw [hrest, plain_fst]
            rw [hinq] at hR ⊢
            refine Reads.step (hb := hb) (out := out) (by omega) hn.symm hp ?_ hbl ?_ (by simp; omega) hR
            · change inq ++ out.getD [] = hb ++ (access (add64 base count) n ++ body.drop 16) ++ rest
              rw [← hacc]; exact hbytes
            · rw [Nat.add_comm 16 n]; exact hg
        · subst hnone
          dsimp only at h
          rw [if_pos (hst.ne (by omega) hnpos)] at h
          simp at h

/-- **C52**, READ against any client: a successful read went through consecutive chunks, each answered properly, and
returns the concatenation of what was answered. -/
theorem C52_read_checked {σ : Type} (snd : Send) (hs : Healthy snd) (p : Peer σ) (max : Nat) (hm : 0 < max) (st : σ)
    (inq : List Byte) (id : Nat) (sg : Dma.Sg) (hl : sg.length < U64)
    (h : (dmaRead snd p max st inq id sg).res = .ok ()) :
    Reads p max ((sg.dmaAddr + sg.offset) % 18446744073709551616) st inq id sg.length 0
      (dmaRead snd p max st inq id sg).peer (dmaRead snd p max st inq id sg).inq
      (dmaRead snd p max st inq id sg).data := by
  unfold dmaRead at h ⊢
  have hz : ∀ (m : Nat) (n off : Nat), leAt (List.replicate m 0#8) off n = 0 := by
    intro m n
    induction n with
    | zero => intro off; rfl
    | succ n ih =>
      intro off
      simp only [leAt, ih, Nat.mul_zero, Nat.add_zero]
      by_cases ho : off < m
      · simp [List.getD, ho]
      · simp [List.getD, ho]
  obtain ⟨data, hd, hR⟩ := readLoop_ok snd hs p max (add64 sg.dmaAddr sg.offset) hm (sg.length + 1) st inq id _
    sg.length 0 [] (by omega) (Or.inl (hz _ 8 8)) h
  rw [hd] at *
  exact hR

/-- A write of `remaining` bytes starting `count` bytes into the entry, as a sequence of exchanges each answered by a
reply with the request's id, of type reply, without error, that repeats address and count. -/
inductive Writes {σ : Type} (p : Peer σ) (max base : Nat) (data : List Byte) :
    σ → List Byte → Nat → Nat → Nat → σ → List Byte → Prop
  | done (st : σ) (inq : List Byte) (id count : Nat) : Writes p max base data st inq id 0 count st inq
  | step {st st' st2 : σ} {inq inq' inq2 hb : List Byte} {out : Option (List Byte)}
      {id remaining count n : Nat} (hr : 0 < remaining) (hn : n = min remaining max)
      (hp : p st ((reqHdr id 12 (16 + n)).bytes ++ (access ((base + count) % 18446744073709551616) n ++
        (data.drop count).take n)) = (st', out))
      (hin : inq ++ out.getD [] = hb ++ access ((base + count) % 18446744073709551616) n ++ inq')
      (hhb : hb.length = 16) (hg : GoodHdr (Hdr.ofBytes hb) (id % 65536) 16)
      (tail : Writes p max base data st' inq' (id + 1) (remaining - n) (count + n) st2 inq2) :
      Writes p max base data st inq id remaining count st2 inq2

theorem writeLoop_ok {σ : Type} (snd : Send) (hs : Healthy snd) (p : Peer σ) (max base : Nat) (data : List Byte)
    (hm : 0 < max) (fuel : Nat) : ∀ (st : σ) (inq : List Byte) (id : Nat) (rbuf : Option (List Byte))
      (remaining count : Nat), remaining + count < U64 → data.length = remaining + count →
      min remaining max + 32 < U32 → (∀ r, rbuf = some r → Stale base count r) →
      (writeLoop snd p max base data fuel st inq id rbuf remaining count).res = .ok () →
        Writes p max base data st inq id remaining count
          (writeLoop snd p max base data fuel st inq id rbuf remaining count).peer
          (writeLoop snd p max base data fuel st inq id rbuf remaining count).inq := by
  induction fuel with
  | zero => intro st inq id rbuf remaining count _ _ _ _ h; simp [writeLoop] at h
  | succ fuel ih =>
    intro st inq id rbuf remaining count hlt hdl hsz hst h
    unfold writeLoop at h ⊢
    by_cases h0 : remaining = 0
    · subst h0
      rw [if_pos rfl] at h ⊢
      exact Writes.done ..
    · rw [if_neg h0] at h ⊢
      dsimp only at h ⊢
      generalize hn : min remaining max = n at h hsz ⊢
      have hnpos : 0 < n := by omega
      have hnle : n ≤ remaining := by omega
      have hlen : (access (add64 base count) n ++ (data.drop count).take n).length = 16 + n := by
        simp [access_length]; omega
      generalize hx : exchange snd p st inq (id % 65536) CMD_DMA_WRITE (access (add64 base count) n ++ (data.drop count).take n) 16 = x at h ⊢
      cases hres : x.res with
      | error e => rw [hres] at h; simp at h
      | ok got =>
        rw [hres] at h
        dsimp only at h ⊢
        unfold exchange at hx
        rw [send_request snd hs id CMD_DMA_WRITE _ (by rw [hlen]; omega)] at hx
        dsimp only at hx
        rw [hlen] at hx
        simp only [List.flatMap_cons, List.flatMap_nil, List.append_nil] at hx
        generalize hp : p st ((reqHdr id CMD_DMA_WRITE (16 + n)).bytes ++ (access (add64 base count) n ++ (data.drop count).take n)) = po at hx
        obtain ⟨st', out⟩ := po
        dsimp only at hx
        change (let (r, sock') := recvReply { cells := plain (inq ++ out.getD []), closed := true, lim := [] } (id % 65536) 16;
          ({ peer := st', inq := sock'.cells.map Prod.fst, res := r, sent := _ } : Xchg σ)) = x at hx
        generalize hrr : recvReply { cells := plain (inq ++ out.getD []), closed := true, lim := [] } (id % 65536) 16 = rr at hx
        obtain ⟨r, sock'⟩ := rr
        dsimp only at hx
        subst hx
        dsimp only at hres h ⊢
        subst hres
        rcases recvReply_ok hrr with ⟨hb, body, rest, hbytes, hbl, hbody, hg, hgot, hrest⟩ | hnone
        · subst hgot
          dsimp only at h ⊢
          by_cases hc : leAt body 0 8 ≠ add64 base count ∨ leAt body 8 8 ≠ n
          · rw [if_pos hc] at h; simp at h
          · rw [if_neg hc] at h ⊢
            dsimp only at h ⊢
            have hc' : leAt body 0 8 = add64 base count ∧ leAt body 8 8 = n := by
              rw [not_or, Decidable.not_not, Decidable.not_not] at hc
              exact hc
            have hR := ih st' (sock'.cells.map Prod.fst) (id + 1) (some body) (remaining - n) (count + n) (by omega)
              (by omega) (by omega) (by
                intro r hr
                cases hr
                exact Or.inr ⟨count, by omega, hc'.1⟩) h
            have hacc : body = access (add64 base count) n := by
              have := access_of_leAt body hbody
              rw [hc'.1, hc'.2] at this
              exact this
            have hinq : sock'.cells.map Prod.fst = rest := by rw [hrest, plain_fst]
            rw [hinq] at hR ⊢
            refine Writes.step (hb := hb) (out := out) (by omega) hn.symm hp ?_ hbl hg hR
            change inq ++ out.getD [] = hb ++ access (add64 base count) n ++ rest
            rw [← hacc]; exact hbytes
        · subst hnone
          dsimp only at h
          cases rbuf with
          | none => dsimp only at h; simp at h
          | some r =>
            dsimp only at h
            rw [if_pos ((hst r rfl).ne (by omega) hnpos)] at h
            simp at h

/-- **C52**, WRITE against any client: a successful write sent consecutive chunks of the data, each acknowledged
properly. -/
theorem C52_write_checked {σ : Type} (snd : Send) (hs : Healthy snd) (p : Peer σ) (max : Nat) (hm : 0 < max) (st : σ)
    (inq : List Byte) (id : Nat) (sg : Dma.Sg) (data : List Byte) (hd : data.length = sg.length)
    (hl : min sg.length max + 32 < U32) (hl2 : sg.length < U64)
    (h : (dmaWrite snd p max st inq id sg data).res = .ok ()) :
    sg.writeable = true ∧ Writes p max ((sg.dmaAddr + sg.offset) % 18446744073709551616) data st inq id sg.length 0
      (dmaWrite snd p max st inq id sg data).peer (dmaWrite snd p max st inq id sg data).inq := by
  unfold dmaWrite at h ⊢
  by_cases hw : sg.writeable = false
  · rw [if_pos hw] at h; simp at h
  · rw [if_neg hw] at h ⊢
    refine ⟨by simpa using hw, ?_⟩
    exact writeLoop_ok snd hs p max (add64 sg.dmaAddr sg.offset) data hm (sg.length + 1) st inq id none sg.length 0
      (by omega) (by omega) hl (by intro r hr; cases hr) h

end Verif.Wire
