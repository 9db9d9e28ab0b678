import Verif.Wire.Faithful
import Verif.Wire.Refused
import Verif.Wire.Version
import Verif.Wire.Pipe
import Verif.Wire.Life
import Verif.Wire.Announce
import Verif.Wire.Cross
import Verif.Wire.Path
import Verif.Wire.PipeDma
import Verif.Wire.PipeAttach

/-!
# C47, C48, C49, C50, C52, C53: concrete cases and witnesses

The theorems: `C47_read`, `C47_refuses`, `C48_frames`, `C48_violated`, `C48_short`, `C49_reply` in `Frame`;
`C50_negotiate` in `Version`; `C52_read_checked`, `C52_write_checked` in `Xfer`; `C52_read`, `C52_write`, `C52_tiles`,
`C52_read_violated`, `C52_write_uninit`, `C53_ends`, `C53_violated` in `Faithful`; `C52_read_refused`, `C52_write_refused`,
`C50_received`, `C50_delivered` in `Refused`. -/

namespace Verif.Wire
open Verif
open Verif.Dma (Fd)

/-- Two requests: a region read with a descriptor attached, and a device reset. -/
def exMsgs : List Msg :=
  [{ h := { id := 7, cmd := 9, size := 32, flags := 0, err := 0 }, body := enc 8 16 ++ enc 4 0 ++ enc 4 4, fds := [3] },
   { h := { id := 8, cmd := 13, size := 16, flags := 0x10, err := 0 }, body := [], fds := [] }]

theorem exMsgs_ok : ∀ m ∈ exMsgs, m.Ok := by
  intro m hm
  simp only [exMsgs, List.mem_cons, List.not_mem_nil, or_false] at hm
  rcases hm with rfl | rfl
  · refine ⟨⟨by decide, by decide, by decide, by decide, by decide⟩, by decide, by decide, by decide, Or.inl (by decide), by decide⟩
  · refine ⟨⟨by decide, by decide, by decide, by decide, by decide⟩, by decide, by decide, by decide, Or.inr rfl, by decide⟩

/-- C48: both are read, whatever follows. -/
example (rest : List Cell) : reads 2 { cells := exMsgs.flatMap Msg.cells ++ rest, closed := false, lim := [] } =
    [.req { id := 7, cmd := 9, size := 32, flags := 0, err := 0 } (enc 8 16 ++ enc 4 0 ++ enc 4 4) [3],
     .req { id := 8, cmd := 13, size := 16, flags := 0x10, err := 0 } [] []] :=
  (C48_frames exMsgs exMsgs_ok rest false).1

/-- C47: the hypothesis of `C47_read` is met. -/
example : ∃ s', next { cells := exMsgs.flatMap Msg.cells, closed := false, lim := [] } =
    (.req { id := 7, cmd := 9, size := 32, flags := 0, err := 0 } (enc 8 16 ++ enc 4 0 ++ enc 4 4) [3], s') := by
  have := next_msg _ (exMsgs_ok _ (List.mem_cons_self ..)) (exMsgs.tail.flatMap Msg.cells) false
  exact ⟨_, this⟩

/-- C47: headers that are refused: a reply, a size below the header size, a region read without payload, a size
above the maximum. -/
example : Malformed { id := 1, cmd := 9, size := 32, flags := 1, err := 0 } ∧
    Malformed { id := 1, cmd := 9, size := 15, flags := 0, err := 0 } ∧
    Malformed { id := 1, cmd := 9, size := 16, flags := 0, err := 0 } ∧
    Malformed { id := 1, cmd := 9, size := 1048609, flags := 0, err := 0 } := by
  refine ⟨Or.inl (by decide), Or.inr (Or.inl (by decide)), Or.inr (Or.inr (Or.inl (by decide))),
    Or.inr (Or.inr (Or.inr (by decide)))⟩

/-- C48, the boundary: a reply carrying a device reset as its payload resets the device. -/
example : reads 2
      { cells := (({ id := 7, cmd := 9, size := 32, flags := 1, err := 0 } : Hdr).bytes ++
          ({ id := 8, cmd := 13, size := 16, flags := 0, err := 0 } : Hdr).bytes ++ []).map (fun b => (b, [])) ++ []
        closed := false
        lim := [] } =
    [.bad { id := 7, cmd := 9, size := 32, flags := 1, err := 0 } [] EINVAL,
     .req { id := 8, cmd := 13, size := 16, flags := 0, err := 0 } [] []] :=
  C48_violated (({ id := 7, cmd := 9, size := 32, flags := 1, err := 0 } : Hdr).bytes) rfl (Or.inl (by decide))
    { h := { id := 8, cmd := 13, size := 16, flags := 0, err := 0 }, body := [], fds := [] }
    ⟨⟨by decide, by decide, by decide, by decide, by decide⟩, by decide, by decide, by decide, Or.inr rfl, by decide⟩
    rfl [] false

/-- C49: the bytes of an error reply and of a reply with payload. -/
example : reply (fun n => .ok n) { id := 0x102, cmd := 9, size := 32, flags := 0, err := 0 } (.bytes []) [] 22 =
    (.ok (), [{ bytes := [2, 1, 9, 0, 16, 0, 0, 0, 0x21, 0, 0, 0, 22, 0, 0, 0], fds := [] }]) := rfl
example : reply (fun n => .ok n) { id := 5, cmd := 4, size := 32, flags := 0, err := 0 } (.bytes [1, 2]) [some 9] 0 =
    (.ok (), [{ bytes := [5, 0, 4, 0, 18, 0, 0, 0, 1, 0, 0, 0, 0, 0, 0, 0, 1, 2], fds := [9] }]) := rfl

/-! ## C50 -/

/-- A client that asks for 8 descriptors per message, 64 KiB transfers, 4 KiB pages and a command socket. -/
def exJson : Json :=
  .obj [("capabilities", .obj [("max_msg_fds", .int 8), ("max_data_xfer_size", .int 65536),
    ("migration", .obj [("pgsize", .int 4096)]), ("twin_socket", .obj [("supported", .bool true)])])]

example : parseCaps (some exJson) = some { maxFds := 8, maxXfer := 65536, pgsize := 4096, twin := true } := rfl

/-- Accepted with minor version 7; the answer says 2. -/
example : (negotiate (fun n => .ok n) (fun _ => some exJson) 4096 true true (.ok 5) (fun _ => [0x7b, 0x7d, 0])
    (.ok ({ id := 1, cmd := 1, size := 23, flags := 0, err := 0 }, [0, 0, 7, 0, 0x7b, 0x7d, 0]))).sent =
    [{ bytes := [1, 0, 1, 0, 23, 0, 0, 0, 1, 0, 0, 0, 0, 0, 0, 0, 0, 0, 2, 0, 0x7b, 0x7d, 0], fds := [5] }] := rfl

/-- Refused: other major version, an odd page size, 1025 or -1 descriptors, a string where a number is due. -/
example : recvVersion (fun _ => some exJson) 4096 true { id := 1, cmd := 1, size := 20, flags := 0, err := 0 }
    [1, 0, 2, 0] = .error EINVAL := rfl
example : recvVersion (fun _ => some exJson) 16384 true { id := 1, cmd := 1, size := 20, flags := 0, err := 0 }
    [0, 0, 2, 0, 0] = .error EINVAL := rfl
example : recvVersion (fun _ => some (.obj [("capabilities", .obj [("max_msg_fds", .int 1025)])])) 4096 true
    { id := 1, cmd := 1, size := 20, flags := 0, err := 0 } [0, 0, 2, 0, 0] = .error EINVAL := rfl
example : recvVersion (fun _ => some (.obj [("capabilities", .obj [("max_msg_fds", .int (-1))])])) 4096 true
    { id := 1, cmd := 1, size := 20, flags := 0, err := 0 } [0, 0, 2, 0, 0] = .error EINVAL := rfl
example : recvVersion (fun _ => some (.obj [("capabilities", .obj [("max_msg_fds", .other)])])) 4096 true
    { id := 1, cmd := 1, size := 20, flags := 0, err := 0 } [0, 0, 2, 0, 0] = .error EINVAL := rfl

/-- C50, the boundary: values out of range that are not refused.  `2^32 + 1` descriptors are taken for one; a maximum
transfer size of zero, of `-1` (taken for `2^64 - 1`) or of `2^32` (taken for zero) is accepted. -/
theorem C50_violated :
    (recvVersion (fun _ => some (.obj [("capabilities", .obj [("max_msg_fds", .int 4294967297)])])) 4096 true
      { id := 1, cmd := 1, size := 21, flags := 0, err := 0 } [0, 0, 2, 0, 0]).toOption.map (·.1.maxFds) = some 1 ∧
    (recvVersion (fun _ => some (.obj [("capabilities", .obj [("max_data_xfer_size", .int 0)])])) 4096 true
      { id := 1, cmd := 1, size := 21, flags := 0, err := 0 } [0, 0, 2, 0, 0]).toOption.map (·.1.maxXfer) = some 0 ∧
    (recvVersion (fun _ => some (.obj [("capabilities", .obj [("max_data_xfer_size", .int (-1))])])) 4096 true
      { id := 1, cmd := 1, size := 21, flags := 0, err := 0 } [0, 0, 2, 0, 0]).toOption.map (·.1.maxXfer) =
        some 18446744073709551615 ∧
    (recvVersion (fun _ => some (.obj [("capabilities", .obj [("max_data_xfer_size", .int 4294967296)])])) 4096 true
      { id := 1, cmd := 1, size := 21, flags := 0, err := 0 } [0, 0, 2, 0, 0]).toOption.map (·.1.maxXfer) = some 0 :=
  ⟨rfl, rfl, rfl, rfl⟩

/-- C50, what the client asked for is what is recorded, for the values a sane client uses. -/
theorem C50_in_range (top : Json) (c : Caps) (h : Asks top c) (v : Int)
    (hv : top.at ["capabilities", "max_data_xfer_size"] = some (.int v)) (h1 : 0 ≤ v) (h2 : v < 2147483648) :
    (c.maxXfer : Int) = v := by
  rcases h.xfer with ⟨e, _⟩ | ⟨i, e, e2⟩
  · rw [hv] at e; cases e
  · rw [hv] at e; cases e
    rw [e2]
    dsimp only
    rw [int32_of_range v (by omega) h2]
    unfold toSize
    omega

/-! ## C52, C53 -/

/-- An entry of 5 bytes at 0x1002. -/
def exSg : Dma.Sg := { dmaAddr := 0x1000, region := 0, length := 5, offset := 2, writeable := true }

/-- C52, C53: five bytes in chunks of two: three exchanges, the guest's bytes. -/
example : (dmaRead (fun n => .ok n) serve 2 (fun i => BitVec.ofNat 8 i) [] 1 exSg).data = [2, 3, 4, 5, 6] ∧
    (dmaRead (fun n => .ok n) serve 2 (fun i => BitVec.ofNat 8 i) [] 1 exSg).sent.length = 3 := by
  have h := C52_read (fun n => .ok n) (fun _ => rfl) (fun i => BitVec.ofNat 8 i) 2 (by decide) 1 exSg (by decide)
    (by decide) (by decide)
  rw [h]
  exact ⟨by decide, by decide⟩

example : chunk 5 2 0 = (0, 2) ∧ chunk 5 2 1 = (2, 2) ∧ chunk 5 2 2 = (4, 1) ∧ ceilDiv 5 2 = 3 := by decide

example : (dmaWrite (fun n => .ok n) serve 2 (fun _ => 0) [] 1 exSg [9, 8, 7, 6, 5]).peer 0x1004 = 7 := by
  have h := C52_write (fun n => .ok n) (fun _ => rfl) (fun _ => 0) 2 (by decide) 1 exSg [9, 8, 7, 6, 5] rfl rfl
    (by decide) (by decide) (by decide)
  rw [h]
  decide

/-- C52, a client that answers with another request's address: the read fails. -/
example : (dmaRead (fun n => .ok n) (fun (_ : Unit) req =>
      ((), some ((ansHdr (Hdr.ofBytes req) 18).bytes ++ (enc 8 0 ++ enc 8 2) ++ [1, 2]))) 2 () [] 1 exSg).res =
    .err EINVAL := by decide +kernel

/-- C52, a client that answers with another id: the read fails. -/
example : (dmaRead (fun n => .ok n) (fun (_ : Unit) req =>
      ((), some ((ansHdr { Hdr.ofBytes req with id := 77 } 18).bytes ++ (enc 8 0x1002 ++ enc 8 2) ++ [1, 2]))) 2 () [] 1
      exSg).res = .err EPROTO := by decide +kernel

/-- The boundary cases meet their hypotheses. -/
example : (dmaRead (fun n => .ok n) serve 2097152 (fun _ => 0) [] 1 { exSg with length := 1048577 }).res =
    .err EINVAL :=
  C52_read_violated (fun n => .ok n) (fun _ => rfl) (fun _ => 0) 2097152 1 { exSg with length := 1048577 } (by decide)
    (by decide) (by decide)
example : (dmaWrite (fun n => .ok n) (fun (_ : Unit) req => ((), some (ansHdr (Hdr.ofBytes req) 0).bytes)) 2 () [] 1
    exSg [9, 8, 7, 6, 5]).res = .fault .uninit :=
  C52_write_uninit (fun n => .ok n) (fun _ => rfl) 2 1 exSg [9, 8, 7, 6, 5] rfl rfl (by decide) (by decide)
example : ∀ fuel, (readLoop (fun n => .ok n) serve 0 0x1002 fuel (fun _ => 0) [] 1 [] 5 0 []).sent.length = fuel :=
  fun fuel => (C53_violated (fun n => .ok n) (fun _ => rfl) (fun _ => 0) 0x1002 5 (by decide) (by decide) fuel 1 [] []).2

/-- C52, a client that answers with an error number, with 0, and one that goes away. -/
def errHdr (req : List Byte) (e : Nat) : List Byte :=
  ({ Hdr.ofBytes req with size := 16, flags := 0x21, err := e } : Hdr).bytes

example : (dmaRead (fun n => .ok n) (fun (_ : Unit) req => ((), some (errHdr req 13 ++ []))) 2 () [] 1 exSg).res = .err 13 :=
  (C52_read_refused (fun n => .ok n) (fun _ => rfl) _ 2 () 1 exSg (by decide) (e := 13)
    (.failed (by decide +kernel) (.error (by decide +kernel) (by decide +kernel) (by decide +kernel) (by decide +kernel)
      (by decide) (by decide)) (by decide))).1
example : (dmaWrite (fun n => .ok n) (fun (_ : Unit) req => ((), some (errHdr req 0 ++ []))) 2 () [] 1 exSg [9, 8, 7, 6, 5]).res =
    .err EINVAL :=
  (C52_write_refused (fun n => .ok n) (fun _ => rfl) _ 2 () 1 exSg (by decide) rfl [9, 8, 7, 6, 5] rfl (by decide) (e := EINVAL)
    (.failed (by decide +kernel) (.bad (by decide +kernel) (by decide +kernel) (by decide +kernel) (by decide +kernel))
      (by decide +kernel))).1
example : (dmaRead (fun n => .ok n) (fun (_ : Unit) _ => ((), none)) 2 () [] 1 exSg).res = .err ENOTCONN :=
  (C52_read_refused (fun n => .ok n) (fun _ => rfl) _ 2 () 1 exSg (by decide) .closed).1

/-- C50: a version request of four bytes, and behind it the first byte of the next message. -/
example : recvMsg ⟨plain ((⟨1, 1, 20, 0, 0⟩ : Hdr).bytes ++ [0, 0, 1, 0] ++ [7]), false, []⟩ =
    (.ok (⟨1, 1, 20, 0, 0⟩, [0, 0, 1, 0]), ⟨plain [7], false, []⟩) :=
  C50_delivered ⟨by decide, by decide, by decide, by decide, by decide⟩ (by decide) _ _ (by decide) (by decide) false

end Verif.Wire
