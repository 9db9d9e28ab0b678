import Verif.Wire.Xfer

/-!
# A client that serves its memory: C52, C53 -/

namespace Verif.Wire
open Verif
open Verif.Dma (Fd)

/-- `n` bytes of memory from `a`. -/
def peek (m : Nat → Byte) (a n : Nat) : List Byte := (List.range n).map (fun i => m (a + i))

/-- Memory with the bytes `l` at `a`. -/
def poke (m : Nat → Byte) (a : Nat) (l : List Byte) : Nat → Byte :=
  fun i => if a ≤ i ∧ i < a + l.length then l.getD (i - a) 0#8 else m i

/-- The header of the client's answer. -/
def ansHdr (h : Hdr) (n : Nat) : Hdr := { id := h.id, cmd := h.cmd, size := 16 + n, flags := 1, err := 0 }

/-- A client that answers DMA reads (command 11) and writes (command 12) from its memory. -/
def serve : Peer (Nat → Byte) := fun m req =>
  let h := Hdr.ofBytes req
  let a := leAt req 16 8
  let n := leAt req 24 8
  if h.cmd = 11 then (m, some ((ansHdr h (16 + n)).bytes ++ (access a n ++ peek m a n)))
  else (poke m a ((req.drop 32).take n), some ((ansHdr h 16).bytes ++ access a n))

theorem peek_length (m : Nat → Byte) (a n : Nat) : (peek m a n).length = n := by simp [peek]

theorem peek_add (m : Nat → Byte) (a n k : Nat) : peek m a (n + k) = peek m a n ++ peek m (a + n) k := by
  simp only [peek, List.range_add, List.map_append, List.map_map]
  congr 1
  apply List.map_congr_left
  intro i _
  simp [Nat.add_assoc]

theorem reqHdr_fits (id cmd n : Nat) (hc : cmd < 65536) (hn : 16 + n < U32) : (reqHdr id cmd n).Fits where
  id := Nat.mod_lt _ (by decide)
  cmd := hc
  size := hn
  flags := by simp [reqHdr, U32]
  err := by simp [reqHdr, U32]

theorem req_fields (id cmd : Nat) (a n : Nat) (rest : List Byte) (k : Nat) (hc : cmd < 65536) (hk : 16 + k < U32)
    (ha : a < U64) (hn : n < U64) :
    let r := (reqHdr id cmd k).bytes ++ (access a n ++ rest)
    Hdr.ofBytes r = reqHdr id cmd k ∧ leAt r 16 8 = a ∧ leAt r 24 8 = n ∧ r.drop 32 = rest := by
  have hl := Hdr.bytes_length (reqHdr id cmd k)
  refine ⟨Hdr.ofBytes_bytes _ (reqHdr_fits id cmd k hc hk) _, ?_, ?_, ?_⟩
  · have := leAt_append_right (reqHdr id cmd k).bytes (access a n ++ rest) 8 0
    rw [hl] at this
    rw [this, leAt_access0 a n ha]
  · have := leAt_append_right (reqHdr id cmd k).bytes (access a n ++ rest) 8 8
    rw [hl] at this
    rw [this, leAt_access8 a n hn]
  · rw [← List.append_assoc, List.drop_left']
    simp [hl, access_length]

theorem ansHdr_good (id cmd k n : Nat) (hc : cmd < 65536) (hn : n ≤ 1048576 + 16) :
    (ansHdr (reqHdr id cmd k) n).Fits ∧ GoodHdr (ansHdr (reqHdr id cmd k) n) (id % 65536) n :=
  ⟨⟨Nat.mod_lt _ (by decide), hc, by simp only [ansHdr, U32]; omega, by simp [ansHdr, U32],
      by simp [ansHdr, U32]⟩,
    ⟨rfl, rfl, by simp only [ansHdr]; decide, Nat.le_refl _, by simp only [ansHdr]; omega⟩⟩

/-- An exchange put together. -/
theorem exchange_eq {σ : Type} (snd : Send) (hs : Healthy snd) (p : Peer σ) (st st' : σ) (inq : List Byte)
    (id cmd len : Nat) (data : List Byte) (out : Option (List Byte)) (r : Except Nat (Option (List Byte)))
    (sock' : Sock) (hd : data.length + 16 < U32)
    (hp : p st ((reqHdr id cmd data.length).bytes ++ data) = (st', out))
    (hr : recvReply { cells := plain (inq ++ out.getD []), closed := true, lim := [] } (id % 65536) len = (r, sock')) :
    exchange snd p st inq (id % 65536) cmd data len =
      { peer := st', inq := sock'.cells.map Prod.fst, res := r,
        sent := [{ bytes := (reqHdr id cmd data.length).bytes ++ data, fds := [] }] } := by
  unfold exchange
  rw [send_request snd hs id cmd data hd]
  dsimp only
  simp only [List.flatMap_cons, List.flatMap_nil, List.append_nil]
  rw [hp]
  dsimp only
  unfold plain at hr
  rw [hr]

/-- One read round against the faithful client. -/
theorem exchange_read (snd : Send) (hs : Healthy snd) (m : Nat → Byte) (id a n : Nat) (ha : a < U64)
    (hn : n ≤ 1048576) :
    exchange snd serve m [] (id % 65536) CMD_DMA_READ (access a n) (n + 16) =
      { peer := m, inq := [], res := .ok (some (access a n ++ peek m a n)),
        sent := [{ bytes := (reqHdr id 11 16).bytes ++ access a n, fds := [] }] } := by
  obtain ⟨f1, f2, f3, _⟩ := req_fields id 11 a n [] 16 (by decide) (by decide) ha (by simp only [U64]; omega)
  rw [List.append_nil] at f1 f2 f3
  obtain ⟨hf, hg⟩ := ansHdr_good id 11 16 (16 + n) (by decide) (by omega)
  have hp : serve m ((reqHdr id CMD_DMA_READ (access a n).length).bytes ++ access a n) =
      (m, some ((ansHdr (reqHdr id 11 16) (16 + n)).bytes ++ (access a n ++ peek m a n))) := by
    rw [access_length, show CMD_DMA_READ = 11 from rfl]
    unfold serve
    dsimp only
    rw [f1, f2, f3, if_pos (by simp [reqHdr])]
  have hrr := recvReply_good (ansHdr (reqHdr id 11 16) (16 + n)).bytes (access a n ++ peek m a n) [] (id % 65536)
    (n + 16) (Hdr.bytes_length _) (by simp [access_length, peek_length]; omega) (by omega) (by
      have := Hdr.ofBytes_bytes _ hf []
      rw [List.append_nil] at this
      rw [this, Nat.add_comm n 16]; exact hg)
  rw [List.append_nil] at hrr
  have := exchange_eq snd hs serve m m [] id CMD_DMA_READ (n + 16) (access a n) _ _ _
    (by rw [access_length]; decide) hp hrr
  rw [this, access_length]
  simp only [plain, List.map_nil, CMD_DMA_READ]

/-- One write round against the faithful client. -/
theorem exchange_write (snd : Send) (hs : Healthy snd) (m : Nat → Byte) (id a : Nat) (l : List Byte) (ha : a < U64)
    (hn : l.length + 32 < U32) :
    exchange snd serve m [] (id % 65536) CMD_DMA_WRITE (access a l.length ++ l) 16 =
      { peer := poke m a l, inq := [], res := .ok (some (access a l.length)),
        sent := [{ bytes := (reqHdr id 12 (16 + l.length)).bytes ++ (access a l.length ++ l), fds := [] }] } := by
  obtain ⟨f1, f2, f3, f4⟩ := req_fields id 12 a l.length l (16 + l.length) (by decide) (by omega) ha
    (by simp only [U32, U64] at *; omega)
  obtain ⟨hf, hg⟩ := ansHdr_good id 12 (16 + l.length) 16 (by decide) (by omega)
  have hlen : (access a l.length ++ l).length = 16 + l.length := by simp [access_length]
  have hp : serve m ((reqHdr id CMD_DMA_WRITE (access a l.length ++ l).length).bytes ++ (access a l.length ++ l)) =
      (poke m a l, some ((ansHdr (reqHdr id 12 (16 + l.length)) 16).bytes ++ access a l.length)) := by
    rw [hlen, show CMD_DMA_WRITE = 12 from rfl]
    unfold serve
    dsimp only
    rw [f1, f2, f3, f4, if_neg (by simp [reqHdr]), List.take_length]
  have hrr := recvReply_good (ansHdr (reqHdr id 12 (16 + l.length)) 16).bytes (access a l.length) [] (id % 65536)
    16 (Hdr.bytes_length _) (access_length _ _) (by omega) (by
      have := Hdr.ofBytes_bytes _ hf []
      rw [List.append_nil] at this
      rw [this]; exact hg)
  rw [List.append_nil] at hrr
  have := exchange_eq snd hs serve m (poke m a l) [] id CMD_DMA_WRITE 16 (access a l.length ++ l) _ _ _
    (by rw [hlen]; omega) hp hrr
  rw [this, hlen]
  simp only [plain, List.map_nil, CMD_DMA_WRITE]

/-! ## Tiling -/

/-- `⌈len / max⌉`. -/
def ceilDiv (len max : Nat) : Nat := (len + max - 1) / max

theorem ceilDiv_zero (max : Nat) (hm : 0 < max) : ceilDiv 0 max = 0 := by
  unfold ceilDiv; rw [Nat.zero_add]; exact Nat.div_eq_of_lt (by omega)

theorem ceilDiv_step (len max : Nat) (hm : 0 < max) (hl : 0 < len) :
    ceilDiv len max = ceilDiv (len - min len max) max + 1 := by
  unfold ceilDiv
  by_cases h : len ≤ max
  · rw [Nat.min_eq_left h, Nat.sub_self, Nat.zero_add, Nat.div_eq_of_lt (by omega : max - 1 < max)]
    rw [show len + max - 1 = (len - 1) + max by omega, Nat.add_div_right _ hm, Nat.div_eq_of_lt (by omega)]
  · rw [Nat.min_eq_right (by omega)]
    rw [show len + max - 1 = (len - max + max - 1) + max by omega, Nat.add_div_right _ hm]

/-- The `i`-th chunk of an entry of `len` bytes cut into pieces of `max`: where it starts and how long it is. -/
def chunk (len max i : Nat) : Nat × Nat := (i * max, min max (len - i * max))

/-- The read request for the chunk at `off`, `n` bytes. -/
def readReq (id base off n : Nat) : Sent :=
  { bytes := (reqHdr id 11 16).bytes ++ access (base + off) n, fds := [] }

/-- The write request for the chunk at `off`, `n` bytes. -/
def writeReq (data : List Byte) (id base off n : Nat) : Sent :=
  { bytes := (reqHdr id 12 (16 + n)).bytes ++ (access (base + off) n ++ (data.drop off).take n), fds := [] }

theorem tile_step (f : Nat → Nat → Nat → Sent) (id count rem max : Nat) (hm : 0 < max) (hr : 0 < rem) :
    (List.range (ceilDiv rem max)).map (fun i => f (id + i) (count + i * max) (min max (rem - i * max))) =
      f id count (min rem max) ::
        (List.range (ceilDiv (rem - min rem max) max)).map
          (fun i => f (id + 1 + i) (count + min rem max + i * max) (min max (rem - min rem max - i * max))) := by
  rw [ceilDiv_step rem max hm hr, List.range_succ_eq_map, List.map_cons, List.map_map]
  congr 1
  · simp [Nat.min_comm]
  · apply List.map_congr_left
    intro i hi
    have hi' : i < ceilDiv (rem - min rem max) max := List.mem_range.mp hi
    have hmx : min rem max = max := by
      by_contra hne
      have : min rem max = rem := by omega
      rw [this, Nat.sub_self, ceilDiv_zero _ hm] at hi'
      omega
    simp only [Function.comp, Nat.succ_eq_add_one, hmx]
    have h1 : id + (i + 1) = id + 1 + i := by omega
    have h2 : count + (i + 1) * max = count + max + i * max := by ring
    have h3 : rem - (i + 1) * max = rem - max - i * max := by
      rw [Nat.sub_sub]; congr 1; ring
    rw [h1, h2, h3]

theorem add64_of_lt {a b : Nat} (h : a + b < U64) : add64 a b = a + b := Nat.mod_eq_of_lt h

theorem readLoop_serve (snd : Send) (hs : Healthy snd) (m : Nat → Byte) (max base : Nat) (hm : 0 < max)
    (fuel : Nat) : ∀ (id : Nat) (rbuf : List Byte) (remaining count : Nat) (acc : List Byte),
      base + count + remaining ≤ U64 → min remaining max ≤ 1048576 → remaining < fuel →
      readLoop snd serve max base fuel m [] id rbuf remaining count acc =
        { peer := m, inq := [], id := id + ceilDiv remaining max, data := acc ++ peek m (base + count) remaining,
          res := .ok (),
          sent := (List.range (ceilDiv remaining max)).map
            (fun i => readReq (id + i) base (count + i * max) (min max (remaining - i * max))) } := by
  induction fuel with
  | zero => intro id rbuf remaining count acc _ _ h; omega
  | succ fuel ih =>
    intro id rbuf remaining count acc hlt hsz hf
    unfold readLoop
    by_cases h0 : remaining = 0
    · subst h0
      rw [if_pos rfl, ceilDiv_zero _ hm]
      simp [peek]
    · rw [if_neg h0]
      dsimp only
      have hn0 : 0 < min remaining max := by omega
      have ha : add64 base count = base + count := add64_of_lt (by omega)
      rw [ha, exchange_read snd hs m id (base + count) (min remaining max) (by omega) hsz]
      dsimp only
      have e0 : ∀ l : List Byte, leAt (access (base + count) (min remaining max) ++ peek m (base + count) (min remaining max) ++ l) 0 8 = base + count := by
        intro l; rw [List.append_assoc]; exact leAt_access0 _ _ (by omega) _
      have e8 : ∀ l : List Byte, leAt (access (base + count) (min remaining max) ++ peek m (base + count) (min remaining max) ++ l) 8 8 = min remaining max := by
        intro l; rw [List.append_assoc]; exact leAt_access8 _ _ (by simp only [U64] at *; omega) _
      rw [e0, e8, if_neg (by simp)]
      have hpay : ∀ l : List Byte, List.take (min remaining max) ((access (base + count) (min remaining max) ++ peek m (base + count) (min remaining max) ++ l).drop 16) =
          peek m (base + count) (min remaining max) := by
        intro l
        rw [List.append_assoc, List.drop_left' (access_length _ _),
          List.take_left' (peek_length _ _ _)]
      rw [hpay, ih (id + 1) _ (remaining - min remaining max) (count + min remaining max) _ (by omega) (by omega) (by omega)]
      dsimp only
      have hpk : acc ++ peek m (base + count) (min remaining max) ++ peek m (base + (count + min remaining max)) (remaining - min remaining max) =
          acc ++ peek m (base + count) remaining := by
        rw [List.append_assoc, ← Nat.add_assoc, ← peek_add]
        rw [show min remaining max + (remaining - min remaining max) = remaining by omega]
      rw [hpk, ← tile_step_read id base count remaining max hm (by omega), ceilDiv_step remaining max hm (by omega)]
      rw [show id + 1 + ceilDiv (remaining - min remaining max) max = id + (ceilDiv (remaining - min remaining max) max + 1) by omega]
where
  tile_step_read (id base count rem max : Nat) (hm : 0 < max) (hr : 0 < rem) :
      (List.range (ceilDiv rem max)).map (fun i => readReq (id + i) base (count + i * max) (min max (rem - i * max))) =
        [({ bytes := (reqHdr id 11 16).bytes ++ access (base + count) (min rem max), fds := [] } : Sent)] ++
          (List.range (ceilDiv (rem - min rem max) max)).map
            (fun i => readReq (id + 1 + i) base (count + min rem max + i * max) (min max (rem - min rem max - i * max))) :=
    tile_step (fun id off n => readReq id base off n) id count rem max hm hr

/-- **C52**, READ: for every entry and every maximum of at least one byte (chunks of at most 1 MiB), a client that
serves its memory is asked for consecutive chunks that tile the entry, none larger than the maximum, and the read
returns exactly the bytes of the entry; nothing is left on the socket.  **C53**: `⌈length / max⌉` exchanges. -/
theorem C52_read (snd : Send) (hs : Healthy snd) (m : Nat → Byte) (max : Nat) (hm : 0 < max) (id : Nat) (sg : Dma.Sg)
    (hsg : sg.dmaAddr + sg.offset + sg.length ≤ U64) (hsz : min sg.length max ≤ 1048576) (hpos : 0 < sg.length) :
    dmaRead snd serve max m [] id sg =
      { peer := m, inq := [], id := id + ceilDiv sg.length max,
        data := peek m (sg.dmaAddr + sg.offset) sg.length, res := .ok (),
        sent := (List.range (ceilDiv sg.length max)).map fun i =>
          readReq (id + i) (sg.dmaAddr + sg.offset) (chunk sg.length max i).1 (chunk sg.length max i).2 } := by
  unfold dmaRead
  rw [add64_of_lt (show sg.dmaAddr + sg.offset < U64 by omega),
    readLoop_serve snd hs m max _ hm _ id _ sg.length 0 [] (by omega) hsz (by omega)]
  simp [chunk]

/-- Bytes written chunk by chunk are the bytes written at once. -/
theorem poke_poke (m : Nat → Byte) (a : Nat) (l r : List Byte) : poke (poke m a l) (a + l.length) r = poke m a (l ++ r) := by
  funext i
  unfold poke
  simp only [List.length_append]
  by_cases h1 : a + l.length ≤ i ∧ i < a + l.length + r.length
  · rw [if_pos h1, if_pos (by omega)]
    simp only [List.getD]
    rw [List.getElem?_append_right (by omega)]
    congr 2
    omega
  · rw [if_neg h1]
    by_cases h2 : a ≤ i ∧ i < a + l.length
    · rw [if_pos h2, if_pos (by omega)]
      simp only [List.getD]
      rw [List.getElem?_append_left (by omega)]
    · rw [if_neg h2, if_neg (by omega)]

theorem poke_nil (m : Nat → Byte) (a : Nat) : poke m a [] = m := by
  funext i; unfold poke; rw [if_neg (by simp)]

theorem writeLoop_serve (snd : Send) (hs : Healthy snd) (max base : Nat) (data : List Byte) (hm : 0 < max)
    (fuel : Nat) : ∀ (m : Nat → Byte) (id : Nat) (rbuf : Option (List Byte)) (remaining count : Nat),
      base + count + remaining ≤ U64 → min remaining max + 32 < U32 → data.length = count + remaining →
      remaining < fuel →
      writeLoop snd serve max base data fuel m [] id rbuf remaining count =
        { peer := poke m (base + count) (data.drop count), inq := [], id := id + ceilDiv remaining max, data,
          res := .ok (),
          sent := (List.range (ceilDiv remaining max)).map
            (fun i => writeReq data (id + i) base (count + i * max) (min max (remaining - i * max))) } := by
  induction fuel with
  | zero => intro m id rbuf remaining count _ _ _ h; omega
  | succ fuel ih =>
    intro m id rbuf remaining count hlt hsz hdl hf
    unfold writeLoop
    by_cases h0 : remaining = 0
    · subst h0
      rw [if_pos rfl, ceilDiv_zero _ hm, List.drop_of_length_le (by omega), poke_nil]
      simp
    · rw [if_neg h0]
      dsimp only
      have hn0 : 0 < min remaining max := by omega
      have ha : add64 base count = base + count := add64_of_lt (by omega)
      have hl : ((data.drop count).take (min remaining max)).length = min remaining max := by
        simp; omega
      have hx := exchange_write snd hs m id (base + count) ((data.drop count).take (min remaining max)) (by omega)
        (by rw [hl]; exact hsz)
      rw [hl] at hx
      rw [ha, hx]
      dsimp only
      have e0 := leAt_access0 (base + count) (min remaining max) (by omega) []
      have e8 := leAt_access8 (base + count) (min remaining max) (by simp only [U64, U32] at hlt hsz ⊢; omega) []
      rw [List.append_nil] at e0 e8
      rw [e0, e8, if_neg (by simp)]
      rw [ih _ (id + 1) _ (remaining - min remaining max) (count + min remaining max) (by omega) (by omega) (by omega) (by omega)]
      dsimp only
      have hpk : poke (poke m (base + count) ((data.drop count).take (min remaining max)))
            (base + (count + min remaining max)) (data.drop (count + min remaining max)) =
          poke m (base + count) (data.drop count) := by
        have := poke_poke m (base + count) ((data.drop count).take (min remaining max)) ((data.drop count).drop (min remaining max))
        rw [List.take_append_drop, hl, List.drop_drop] at this
        rw [← Nat.add_assoc]; exact this
      have ht := tile_step (fun id off n => writeReq data id base off n) id count remaining max hm (by omega)
      rw [hpk, ht, ceilDiv_step remaining max hm (by omega)]
      rw [show id + 1 + ceilDiv (remaining - min remaining max) max = id + (ceilDiv (remaining - min remaining max) max + 1) by omega]
      rfl

/-- **C52**, WRITE: a client that serves its memory receives consecutive chunks that tile the entry and ends up with
exactly the given bytes at the entry's address, everything else unchanged.  **C53**: `⌈length / max⌉` exchanges. -/
theorem C52_write (snd : Send) (hs : Healthy snd) (m : Nat → Byte) (max : Nat) (hm : 0 < max) (id : Nat) (sg : Dma.Sg)
    (data : List Byte) (hd : data.length = sg.length) (hw : sg.writeable = true)
    (hsg : sg.dmaAddr + sg.offset + sg.length ≤ U64) (hsz : min sg.length max + 32 < U32) (hpos : 0 < sg.length) :
    dmaWrite snd serve max m [] id sg data =
      { peer := poke m (sg.dmaAddr + sg.offset) data, inq := [], id := id + ceilDiv sg.length max, data, res := .ok (),
        sent := (List.range (ceilDiv sg.length max)).map fun i =>
          writeReq data (id + i) (sg.dmaAddr + sg.offset) (chunk sg.length max i).1 (chunk sg.length max i).2 } := by
  unfold dmaWrite
  rw [if_neg (by simp [hw]), add64_of_lt (show sg.dmaAddr + sg.offset < U64 by omega),
    writeLoop_serve snd hs max _ data hm _ m id none sg.length 0 (by omega) hsz (by omega) (by omega)]
  simp [chunk]

/-- The chunks tile the entry: they start where the previous one ended, none is empty or larger than the maximum,
and the last one ends at the end. -/
theorem C52_tiles (len max : Nat) (hm : 0 < max) :
    (∀ i < ceilDiv len max, 0 < (chunk len max i).2 ∧ (chunk len max i).2 ≤ max ∧
      (chunk len max i).1 + (chunk len max i).2 ≤ len ∧
      (i + 1 < ceilDiv len max → (chunk len max i).1 + (chunk len max i).2 = (chunk len max (i + 1)).1) ∧
      (i + 1 = ceilDiv len max → (chunk len max i).1 + (chunk len max i).2 = len)) ∧
    (0 < len → 0 < ceilDiv len max ∧ (chunk len max 0).1 = 0) := by
  have key : ∀ i, i < ceilDiv len max ↔ i * max < len := by
    intro i
    unfold ceilDiv
    rw [Nat.lt_div_iff_mul_lt hm]
    constructor <;> intro h <;> omega
  constructor
  · intro i hi
    have h1 := (key i).mp hi
    have h2 := key (i + 1)
    simp only [chunk]
    have hs : (i + 1) * max = i * max + max := by ring
    rw [hs] at h2 ⊢
    refine ⟨by omega, by omega, by omega, ?_, ?_⟩
    · intro h; have := h2.mp h; omega
    · intro h
      have : ¬ i * max + max < len := fun hx => by have := h2.mpr hx; omega
      omega
  · intro hl
    refine ⟨(key 0).mpr (by omega), by simp [chunk]⟩

/-- The bound of 1 MiB in `C52_read` is needed: with a larger negotiated maximum a read chunk of more than 1 MiB
fails although the client answers it faithfully, because the library takes the answer for too large a message. -/
theorem C52_read_violated (snd : Send) (hs : Healthy snd) (m : Nat → Byte) (max : Nat) (id : Nat)
    (sg : Dma.Sg) (hsg : sg.dmaAddr + sg.offset + sg.length ≤ U64) (hbig : 1048576 < min sg.length max)
    (hfit : min sg.length max + 32 < U32) :
    (dmaRead snd serve max m [] id sg).res = .err EINVAL := by
  generalize hn : min sg.length max = n at *
  have ha : add64 sg.dmaAddr sg.offset = sg.dmaAddr + sg.offset := add64_of_lt (by omega)
  have ha2 : add64 (sg.dmaAddr + sg.offset) 0 = sg.dmaAddr + sg.offset := add64_of_lt (by omega)
  obtain ⟨f1, f2, f3, _⟩ := req_fields id 11 (sg.dmaAddr + sg.offset) n [] 16 (by decide) (by decide) (by omega)
    (by simp only [U64, U32] at *; omega)
  rw [List.append_nil] at f1 f2 f3
  have hf : (ansHdr (reqHdr id 11 16) (16 + n)).Fits :=
    ⟨Nat.mod_lt _ (by decide), by simp [ansHdr, reqHdr], by simp only [ansHdr]; omega, by simp [ansHdr, U32],
      by simp [ansHdr, U32]⟩
  have hx : (exchange snd serve m [] (id % 65536) CMD_DMA_READ (access (sg.dmaAddr + sg.offset) n) (n + 16)).res = .error EINVAL := by
    unfold exchange
    rw [send_request snd hs id CMD_DMA_READ _ (by rw [access_length]; decide)]
    dsimp only
    simp only [List.flatMap_cons, List.flatMap_nil, List.append_nil, access_length]
    have hp : serve m ((reqHdr id CMD_DMA_READ 16).bytes ++ access (sg.dmaAddr + sg.offset) n) =
        (m, some ((ansHdr (reqHdr id 11 16) (16 + n)).bytes ++ (access (sg.dmaAddr + sg.offset) n ++ peek m (sg.dmaAddr + sg.offset) n))) := by
      change serve m ((reqHdr id 11 16).bytes ++ access (sg.dmaAddr + sg.offset) n) = _
      unfold serve
      dsimp only
      rw [f1, f2, f3, if_pos (by simp [reqHdr])]
    rw [hp]
    dsimp only
    rw [List.nil_append, Option.getD_some]
    change (recvReply { cells := plain _, closed := true, lim := [] } (id % 65536) (n + 16)).1 = _
    rw [plain_append]
    unfold recvReply
    rw [recv_full (plain _) _ true HDR (by rw [plain_length]; exact Hdr.bytes_length _) (by decide)]
    have hof := Hdr.ofBytes_bytes _ hf []
    rw [List.append_nil] at hof
    dsimp only
    rw [if_neg (by rw [plain_length, Hdr.bytes_length]; decide), plain_fds, if_neg (by simp), plain_fst, hof,
      if_neg (by simp [ansHdr, reqHdr]), if_neg (by simp [ansHdr, Hdr.type, TYPE_REPLY]),
      if_neg (by simp only [ansHdr, Hdr.error]; decide),
      if_pos (by right; simp only [ansHdr, MAX_MSG, Region.MAX_XFER]; omega)]
  unfold dmaRead
  rw [ha]
  unfold readLoop
  have h0 : sg.length ≠ 0 := by omega
  rw [if_neg h0]
  dsimp only
  rw [ha2, hn, hx]
  rfl

/-- A client that answers the first write with a header alone makes the library compare with memory it never
initialised. -/
theorem C52_write_uninit (snd : Send) (hs : Healthy snd) (max : Nat) (id : Nat) (sg : Dma.Sg) (data : List Byte)
    (hd : data.length = sg.length) (hw : sg.writeable = true) (hpos : 0 < sg.length)
    (hfit : min sg.length max + 32 < U32) :
    (dmaWrite snd (fun (_ : Unit) req => ((), some (ansHdr (Hdr.ofBytes req) 0).bytes)) max () [] id sg data).res =
      .fault .uninit := by
  generalize hn : min sg.length max = n at *
  unfold dmaWrite
  rw [if_neg (by simp [hw])]
  unfold writeLoop
  rw [if_neg (by omega)]
  dsimp only
  rw [hn]
  generalize add64 (add64 sg.dmaAddr sg.offset) 0 = a
  have hlen : (access a n ++ (data.drop 0).take n).length = 16 + n := by
    simp [access_length]; omega
  have hx : (exchange snd (fun (_ : Unit) req => ((), some (ansHdr (Hdr.ofBytes req) 0).bytes)) () [] (id % 65536)
      CMD_DMA_WRITE (access a n ++ (data.drop 0).take n) 16).res = .ok none := by
    unfold exchange
    rw [send_request snd hs id CMD_DMA_WRITE _ (by rw [hlen]; omega)]
    dsimp only
    simp only [List.flatMap_cons, List.flatMap_nil, List.append_nil, hlen]
    have hof := Hdr.ofBytes_bytes _ (reqHdr_fits id CMD_DMA_WRITE (16 + n) (by decide) (by omega)) (access a n ++ (data.drop 0).take n)
    rw [hof]
    obtain ⟨hf, hg⟩ := ansHdr_good id CMD_DMA_WRITE (16 + n) 0 (by decide) (by omega)
    rw [List.nil_append, Option.getD_some]
    change (recvReply { cells := plain _, closed := true, lim := [] } (id % 65536) 16).1 = _
    have hof2 := Hdr.ofBytes_bytes _ hf []
    rw [List.append_nil] at hof2
    have hr := recv_full (plain (ansHdr (reqHdr id CMD_DMA_WRITE (16 + n)) 0).bytes) [] true HDR
      (by rw [plain_length]; exact Hdr.bytes_length _) (by decide)
    rw [List.append_nil] at hr
    unfold recvReply
    rw [hr]
    dsimp only
    rw [if_neg (by rw [plain_length, Hdr.bytes_length]; decide), plain_fds, if_neg (by simp), plain_fst, hof2,
      if_neg (by simp [ansHdr, reqHdr]), if_neg (by simp [ansHdr, Hdr.type, TYPE_REPLY]),
      if_neg (by simp only [ansHdr, Hdr.error]; decide),
      if_neg (by simp only [ansHdr, MAX_MSG, Region.MAX_XFER, HDR]; omega), if_neg (by simp [ansHdr, HDR])]
  rw [hx]

/-! ## Termination -/

theorem readLoop_ends {σ : Type} (snd : Send) (p : Peer σ) (max base : Nat) (hm : 0 < max) (fuel : Nat) :
    ∀ (st : σ) (inq : List Byte) (id : Nat) (rbuf : List Byte) (remaining count : Nat) (acc : List Byte),
      remaining < fuel →
      (∀ f, (readLoop snd p max base fuel st inq id rbuf remaining count acc).res ≠ .fault f) ∧
      (readLoop snd p max base fuel st inq id rbuf remaining count acc).id ≤ id + ceilDiv remaining max := by
  induction fuel with
  | zero => intro st inq id rbuf remaining count acc h; omega
  | succ fuel ih =>
    intro st inq id rbuf remaining count acc hf
    unfold readLoop
    by_cases h0 : remaining = 0
    · rw [if_pos h0]; exact ⟨fun f => by simp, Nat.le_add_right ..⟩
    · rw [if_neg h0]
      dsimp only
      have hc := ceilDiv_step remaining max hm (by omega)
      generalize exchange snd p st inq (id % 65536) CMD_DMA_READ (access (add64 base count) (min remaining max))
        (min remaining max + 16) = x
      cases x.res with
      | error e => dsimp only; exact ⟨fun f => by simp, by omega⟩
      | ok got =>
        cases got with
        | none =>
          dsimp only
          by_cases hb : leAt (rbuf) 0 8 ≠ add64 base count ∨ leAt (rbuf) 8 8 ≠ min remaining max
          · rw [if_pos hb]; exact ⟨fun f => by simp, by dsimp only; omega⟩
          · rw [if_neg hb]
            dsimp only
            have := ih x.peer x.inq (id + 1) (rbuf) (remaining - min remaining max) (count + min remaining max)
              (acc ++ ((rbuf).drop 16).take (min remaining max)) (by omega)
            exact ⟨this.1, by omega⟩
        | some d =>
          dsimp only
          by_cases hb : leAt (d ++ rbuf.drop d.length) 0 8 ≠ add64 base count ∨ leAt (d ++ rbuf.drop d.length) 8 8 ≠ min remaining max
          · rw [if_pos hb]; exact ⟨fun f => by simp, by dsimp only; omega⟩
          · rw [if_neg hb]
            dsimp only
            have := ih x.peer x.inq (id + 1) (d ++ rbuf.drop d.length) (remaining - min remaining max) (count + min remaining max)
              (acc ++ ((d ++ rbuf.drop d.length).drop 16).take (min remaining max)) (by omega)
            exact ⟨this.1, by omega⟩

theorem writeLoop_ends {σ : Type} (snd : Send) (p : Peer σ) (max base : Nat) (data : List Byte) (hm : 0 < max)
    (fuel : Nat) : ∀ (st : σ) (inq : List Byte) (id : Nat) (rbuf : Option (List Byte)) (remaining count : Nat),
      remaining < fuel →
      (writeLoop snd p max base data fuel st inq id rbuf remaining count).res ≠ .fault .diverge ∧
      (writeLoop snd p max base data fuel st inq id rbuf remaining count).id ≤ id + ceilDiv remaining max := by
  induction fuel with
  | zero => intro st inq id rbuf remaining count h; omega
  | succ fuel ih =>
    intro st inq id rbuf remaining count hf
    unfold writeLoop
    by_cases h0 : remaining = 0
    · rw [if_pos h0]; exact ⟨by simp, Nat.le_add_right ..⟩
    · rw [if_neg h0]
      dsimp only
      have hc := ceilDiv_step remaining max hm (by omega)
      generalize exchange snd p st inq (id % 65536) CMD_DMA_WRITE _ 16 = x
      cases x.res with
      | error e => dsimp only; exact ⟨by simp, by omega⟩
      | ok got =>
        cases got with
        | none =>
          cases rbuf with
          | none => dsimp only; exact ⟨by simp, by omega⟩
          | some rep =>
            dsimp only
            by_cases hb : leAt rep 0 8 ≠ add64 base count ∨ leAt rep 8 8 ≠ min remaining max
            · rw [if_pos hb]; exact ⟨by simp, by dsimp only; omega⟩
            · rw [if_neg hb]
              dsimp only
              have := ih x.peer x.inq (id + 1) (some rep) (remaining - min remaining max) (count + min remaining max) (by omega)
              exact ⟨this.1, by omega⟩
        | some d =>
          dsimp only
          by_cases hb : leAt d 0 8 ≠ add64 base count ∨ leAt d 8 8 ≠ min remaining max
          · rw [if_pos hb]; exact ⟨by simp, by dsimp only; omega⟩
          · rw [if_neg hb]
            dsimp only
            have := ih x.peer x.inq (id + 1) (some d) (remaining - min remaining max) (count + min remaining max) (by omega)
            exact ⟨this.1, by omega⟩

/-- **C53**.  With a maximum of at least one byte a transfer ends whatever the client and the socket do, after at
most `⌈length / max⌉` exchanges (the message counter counts them); exactly that many if it succeeds against a client
that serves its memory (`C52_read`, `C52_write`). -/
theorem C53_ends {σ : Type} (snd : Send) (p : Peer σ) (max : Nat) (hm : 0 < max) (st : σ) (inq : List Byte) (id : Nat)
    (sg : Dma.Sg) (data : List Byte) :
    (dmaRead snd p max st inq id sg).res ≠ .fault .diverge ∧
    (dmaRead snd p max st inq id sg).id ≤ id + ceilDiv sg.length max ∧
    (dmaWrite snd p max st inq id sg data).res ≠ .fault .diverge ∧
    (dmaWrite snd p max st inq id sg data).id ≤ id + ceilDiv sg.length max := by
  have h1 := readLoop_ends snd p max (add64 sg.dmaAddr sg.offset) hm (sg.length + 1) st inq id
    (List.replicate (16 + min sg.length max) 0#8) sg.length 0 [] (by omega)
  have h2 := writeLoop_ends snd p max (add64 sg.dmaAddr sg.offset) data hm (sg.length + 1) st inq id none sg.length 0
    (by omega)
  refine ⟨h1.1 _, h1.2, ?_⟩
  unfold dmaWrite
  by_cases hw : sg.writeable = false
  · rw [if_pos hw]; exact ⟨by simp, Nat.le_add_right ..⟩
  · rw [if_neg hw]; exact h2

/-- C53, the boundary: with a negotiated maximum of zero the loop does not end: whatever the number of rounds allowed,
it is used up, against a client that answers every (empty) request faithfully. -/
theorem C53_violated (snd : Send) (hs : Healthy snd) (m : Nat → Byte) (base remaining : Nat) (hr : 0 < remaining)
    (hb : base < U64) (fuel : Nat) : ∀ (id : Nat) (rbuf acc : List Byte),
      (readLoop snd serve 0 base fuel m [] id rbuf remaining 0 acc).res = .fault .diverge ∧
      (readLoop snd serve 0 base fuel m [] id rbuf remaining 0 acc).sent.length = fuel := by
  induction fuel with
  | zero => intro id rbuf acc; exact ⟨rfl, rfl⟩
  | succ fuel ih =>
    intro id rbuf acc
    unfold readLoop
    rw [if_neg (by omega)]
    dsimp only
    rw [Nat.min_zero, add64_of_lt (by omega : base + 0 < U64), Nat.add_zero,
      exchange_read snd hs m id base 0 hb (by omega)]
    dsimp only
    have e0 : ∀ l : List Byte, leAt (access base 0 ++ peek m base 0 ++ l) 0 8 = base := by
      intro l; rw [List.append_assoc]; exact leAt_access0 _ _ hb _
    have e8 : ∀ l : List Byte, leAt (access base 0 ++ peek m base 0 ++ l) 8 8 = 0 := by
      intro l; rw [List.append_assoc]; exact leAt_access8 _ _ (by decide) _
    rw [e0, e8, if_neg (by simp)]
    have := ih (id + 1) ((access base 0 ++ peek m base 0) ++ rbuf.drop (access base 0 ++ peek m base 0).length)
      (acc ++ (((access base 0 ++ peek m base 0) ++ rbuf.drop (access base 0 ++ peek m base 0).length).drop 16).take 0)
    simp only [Nat.sub_zero, Nat.add_zero]
    refine ⟨this.1, ?_⟩
    rw [List.length_append, this.2]
    simp; omega

end Verif.Wire
