import Verif.Wire.PipeDma
import Verif.Wire.Version

/-!
# Attaching over a pipe

`vfu_attach_ctx` on the pipe transport: the negotiation reads standard input and answers on standard output, and neither is closed
when it fails.  C125: so it can be tried again, as long as each attempt gets as far as reading a whole message. -/

namespace Verif.Wire.Pipe
open Verif

/-! ## Model -/

/-- An attempt to attach: its result, the pipe it leaves, what was sent. -/
structure Try where
  res : Except Nat Caps
  pipe : Pipe
  sent : List (List Byte)

/-- `lib/tran_pipe.c:275-298` `tran_pipe_attach` with `lib/tran.c:456-498` `tran_negotiate`, `lib/tran.c:172-294` `recv_version` and
`lib/tran.c:413-453` `send_version`: no second socket is wanted.  `caps` is the text of the server's capabilities without one.  The
descriptors themselves are in `Server.pipeAttach`. -/
def attach (snd : Send) (json : List Byte → Option Json) (page : Nat) (hasMig : Bool) (caps : List Byte) (q : Pipe) : Try :=
  match recvMsg q with
  | (.error e, q') => { res := .error e, pipe := q', sent := [] }
  | (.ok (h, body), q') =>
    match recvVersion json page hasMig h body with
    | .error e => { res := .error e, pipe := q', sent := (reply snd h (.bytes []) e).2 }
    | .ok (c, minor) =>
      match reply snd { h with cmd := CMD_VERSION } (.bytes (enc 2 MAJOR ++ enc 2 (min minor MINOR) ++ caps)) 0 with
      | (.error e, s) => { res := .error e, pipe := q', sent := s }
      | (.ok (), s) => { res := .ok c, pipe := q', sent := s }

/-- Attempt after attempt: the results with what was sent, and the pipe after them. -/
def attempts (snd : Send) (json : List Byte → Option Json) (page : Nat) (hasMig : Bool) (caps : List Byte) :
    Nat → Pipe → List (Except Nat Caps × List (List Byte)) × Pipe
  | 0, q => ([], q)
  | n + 1, q =>
    let t := attach snd json page hasMig caps q
    let r := attempts snd json page hasMig caps n t.pipe
    ((t.res, t.sent) :: r.1, r.2)

/-! ## Whole messages -/

/-- What an attempt makes of the message `m`: it is agreed to exactly if it asks for something acceptable (C50); the answer is
that of the socket without its size, never with a second socket. -/
def Verdict (json : List Byte → Option Json) (page : Nat) (hasMig : Bool) (caps : List Byte) (m : Msg)
    (r : Except Nat Caps × List (List Byte)) : Prop :=
  (∃ c w, Accepts json page hasMig m.h m.body c ∧ r = (.ok c, [blank w]) ∧
    IsReply m.h 0 (enc 2 0 ++ enc 2 (min (leAt m.body 2 2) 2) ++ caps) w) ∨
  ((∀ c, ¬ Accepts json page hasMig m.h m.body c) ∧ ∃ w, r = (.error EINVAL, [blank w]) ∧ IsReply m.h EINVAL [] w)

/-- A version message or something else with a header that fits it. -/
structure Whole (m : Msg) : Prop where
  fits : m.h.Fits
  type : m.h.flags % 16 = 0
  size : m.h.size = 16 + m.body.length
  max : m.body.length ≤ 1048576 + 16

theorem recvMsg_whole (m : Msg) (hm : Whole m) (rest : List Byte) (closed : Bool) :
    recvMsg { bytes := m.h.bytes ++ m.body ++ rest, closed, lim := [] } =
      (.ok (m.h, m.body), { bytes := rest, closed, lim := [] }) := by
  have ho : Hdr.ofBytes m.h.bytes = m.h := by
    have := Hdr.ofBytes_bytes _ hm.fits []
    rwa [List.append_nil] at this
  have hs : m.h.size - HDR = m.body.length := by rw [hm.size]; simp [HDR]
  unfold recvMsg
  rw [List.append_assoc, getMsg_hdr]
  dsimp only
  rw [ho, if_neg (show ¬ m.h.type ≠ TYPE_COMMAND from fun h => h hm.type),
    if_neg (by rw [hm.size]; have := hm.max; unfold HDR MAX_MSG Region.MAX_XFER; omega)]
  by_cases hne : m.body = []
  · rw [if_pos (by rw [hm.size, hne]; rfl), hne]
    rfl
  · have hpos : 0 < m.body.length := List.length_pos_iff.mpr hne
    rw [if_neg (by rw [hm.size]; unfold HDR; omega), hs, read_front hne (by unfold amount; simp)]
    dsimp only
    rw [if_neg (by omega), if_neg (by simp)]
    rfl

theorem attach_whole (snd : Send) (hs : Healthy snd) (json : List Byte → Option Json) (page : Nat) (hasMig : Bool)
    (caps : List Byte) (hc : caps.length + 20 < U32) (m : Msg) (hm : Whole m) (rest : List Byte) (closed : Bool) :
    (attach snd json page hasMig caps { bytes := m.h.bytes ++ m.body ++ rest, closed, lim := [] }).pipe =
      { bytes := rest, closed, lim := [] } ∧
    Verdict json page hasMig caps m
      ((attach snd json page hasMig caps { bytes := m.h.bytes ++ m.body ++ rest, closed, lim := [] }).res,
       (attach snd json page hasMig caps { bytes := m.h.bytes ++ m.body ++ rest, closed, lim := [] }).sent) := by
  unfold attach
  rw [recvMsg_whole m hm]
  dsimp only
  cases hr : recvVersion json page hasMig m.h m.body with
  | error e =>
    have he := recvVersion_err hr
    subst he
    obtain ⟨w, h1, h2⟩ := C82_reply snd hs m.h hm.fits EINVAL (by decide) [] (by decide)
    refine ⟨rfl, .inr ⟨fun c ha => ?_, w, ?_, h2⟩⟩
    · have := (recvVersion_iff json page hasMig m.h m.body c (leAt m.body 2 2)).mpr ⟨ha, rfl⟩
      rw [hr] at this
      cases this
    · dsimp only
      rw [h1]
      rfl
  | ok x =>
    obtain ⟨c, minor⟩ := x
    obtain ⟨ha, hmin⟩ := (recvVersion_iff json page hasMig m.h m.body c minor).mp hr
    subst hmin
    dsimp only
    have hcmd : ({ m.h with cmd := CMD_VERSION } : Hdr) = m.h := by
      have : CMD_VERSION = m.h.cmd := ha.cmd.symm
      rw [this]
    obtain ⟨w, h1, h2⟩ := C82_reply snd hs m.h hm.fits 0 (by decide)
      (enc 2 MAJOR ++ enc 2 (min (leAt m.body 2 2) MINOR) ++ caps)
      (by simp only [List.length_append, enc_length]; omega)
    rw [hcmd, h1]
    exact ⟨rfl, .inl ⟨c, w, ha, rfl, h2⟩⟩

/-- **C125**: of whole messages on the pipe, each attempt takes one, decides it by itself and answers it; what comes after them
is left for `vfu_run_ctx`. -/
theorem C125_tries (snd : Send) (hs : Healthy snd) (json : List Byte → Option Json) (page : Nat) (hasMig : Bool)
    (caps : List Byte) (hc : caps.length + 20 < U32) (ms : List Msg) (hms : ∀ m ∈ ms, Whole m) (rest : List Byte) (closed : Bool) :
    List.Forall₂ (Verdict json page hasMig caps) ms
      (attempts snd json page hasMig caps ms.length
        { bytes := ms.flatMap (fun m => m.h.bytes ++ m.body) ++ rest, closed, lim := [] }).1 ∧
    (attempts snd json page hasMig caps ms.length
        { bytes := ms.flatMap (fun m => m.h.bytes ++ m.body) ++ rest, closed, lim := [] }).2 =
      { bytes := rest, closed, lim := [] } := by
  induction ms with
  | nil => exact ⟨.nil, rfl⟩
  | cons m ms ih =>
    obtain ⟨i1, i2⟩ := ih (fun x hx => hms x (List.mem_cons_of_mem _ hx))
    obtain ⟨h1, h2⟩ := attach_whole snd hs json page hasMig caps hc m (hms m List.mem_cons_self)
      (ms.flatMap (fun m => m.h.bytes ++ m.body) ++ rest) closed
    rw [List.flatMap_cons, List.append_assoc (m.h.bytes ++ m.body)]
    rw [List.length_cons]
    unfold attempts
    dsimp only
    rw [h1]
    exact ⟨.cons h2 i1, i2⟩

/-- **C125**: so a client that was refused any number of times is accepted once it asks for something acceptable. -/
theorem C125_again (snd : Send) (hs : Healthy snd) (json : List Byte → Option Json) (page : Nat) (hasMig : Bool)
    (caps : List Byte) (hc : caps.length + 20 < U32) (ms : List Msg) (hms : ∀ m ∈ ms, Whole m)
    (hbad : ∀ m ∈ ms, ∀ c, ¬ Accepts json page hasMig m.h m.body c) (m : Msg) (hm : Whole m) {c : Caps}
    (ha : Accepts json page hasMig m.h m.body c) (rest : List Byte) (closed : Bool) :
    (attempts snd json page hasMig caps (ms.length + 1)
        { bytes := ms.flatMap (fun m => m.h.bytes ++ m.body) ++ (m.h.bytes ++ m.body ++ rest), closed, lim := [] }).1.map Prod.fst =
      List.replicate ms.length (.error EINVAL) ++ [.ok c] := by
  have hall : ∀ x ∈ ms ++ [m], Whole x := by
    intro x hx
    rcases List.mem_append.mp hx with h | h
    · exact hms x h
    · rw [List.mem_singleton.mp h]; exact hm
  have h := (C125_tries snd hs json page hasMig caps hc (ms ++ [m]) hall rest closed).1
  rw [List.flatMap_append, List.flatMap_cons, List.flatMap_nil, List.append_nil, List.append_assoc, List.length_append,
    List.length_singleton] at h
  generalize (attempts snd json page hasMig caps (ms.length + 1) _).1 = rs at h ⊢
  clear hms hall
  induction ms generalizing rs with
  | nil =>
    cases h with
    | cons h1 h2 =>
      cases h2
      rcases h1 with ⟨c', w, ha', e, _⟩ | ⟨hn, _⟩
      · have : c' = c := by
          have e1 := (recvVersion_iff json page hasMig m.h m.body c (leAt m.body 2 2)).mpr ⟨ha, rfl⟩
          have e2 := (recvVersion_iff json page hasMig m.h m.body c' (leAt m.body 2 2)).mpr ⟨ha', rfl⟩
          rw [e1] at e2
          cases e2
          rfl
        rw [e, this]
        rfl
      · exact absurd ha (hn c)
  | cons x ms ih =>
    cases h with
    | cons h1 h2 =>
      rcases h1 with ⟨c', _, ha', _, _⟩ | ⟨_, w, e, _⟩
      · exact absurd ha' (hbad x List.mem_cons_self c')
      · rw [e, List.map_cons, ih (fun y hy => hbad y (List.mem_cons_of_mem _ hy)) _ h2]
        rfl

/-! ## Anything else -/

/-- **C125**: a header that is not that of a command, or whose size cannot be, is not answered, and only the header is taken: the
next attempt starts in the middle of the message. -/
theorem C125_header (snd : Send) (json : List Byte → Option Json) (page : Nat) (hasMig : Bool) (caps : List Byte)
    (h : Hdr) (hf : h.Fits) (hbad : h.flags % 16 ≠ 0 ∨ h.size < 16 ∨ 1048576 + 32 < h.size) (rest : List Byte) (closed : Bool) :
    attach snd json page hasMig caps { bytes := h.bytes ++ rest, closed, lim := [] } =
      { res := .error EINVAL, pipe := { bytes := rest, closed, lim := [] }, sent := [] } := by
  have ho : Hdr.ofBytes h.bytes = h := by
    have := Hdr.ofBytes_bytes _ hf []
    rwa [List.append_nil] at this
  have hr : recvMsg { bytes := h.bytes ++ rest, closed, lim := [] } = (.error EINVAL, { bytes := rest, closed, lim := [] }) := by
    unfold recvMsg
    rw [getMsg_hdr]
    dsimp only
    rw [ho]
    by_cases ht : h.type ≠ TYPE_COMMAND
    · rw [if_pos ht]
    · rw [if_neg ht, if_pos]
      rcases hbad with x | x
      · exact absurd x ht
      · unfold HDR MAX_MSG Region.MAX_XFER
        omega
  unfold attach
  rw [hr]

/-- **C125**: a message whose payload does not arrive in one piece is not answered either, and the rest of it is what the next
attempt reads. -/
theorem C125_pieces (snd : Send) (json : List Byte → Option Json) (page : Nat) (hasMig : Bool) (caps : List Byte) (m : Msg)
    (hm : Whole m) (a k : Nat) (t : List Nat) (ha : 16 ≤ a) (hk : 0 < k) (hk' : k < m.body.length) (rest : List Byte) (closed : Bool) :
    attach snd json page hasMig caps { bytes := m.h.bytes ++ m.body ++ rest, closed, lim := a :: k :: t } =
      { res := .error ECONNRESET, pipe := { bytes := m.body.drop k ++ rest, closed, lim := t }, sent := [] } := by
  have ho : Hdr.ofBytes m.h.bytes = m.h := by
    have := Hdr.ofBytes_bytes _ hm.fits []
    rwa [List.append_nil] at this
  have hs : m.h.size - HDR = m.body.length := by rw [hm.size]; simp [HDR]
  have hsp : m.body ++ rest = m.body.take k ++ (m.body.drop k ++ rest) := by rw [← List.append_assoc, List.take_append_drop]
  have hlen : (m.body.take k).length = k := by rw [List.length_take]; omega
  have hr : recvMsg { bytes := m.h.bytes ++ m.body ++ rest, closed, lim := a :: k :: t } =
      (.error ECONNRESET, { bytes := m.body.drop k ++ rest, closed, lim := t }) := by
    unfold recvMsg
    rw [List.append_assoc, getMsg_hdr' _ _ _ (by intro x hx; cases hx; exact ha)]
    dsimp only
    rw [ho, if_neg (show ¬ m.h.type ≠ TYPE_COMMAND from fun h => h hm.type),
      if_neg (by rw [hm.size]; have := hm.max; unfold HDR MAX_MSG Region.MAX_XFER; omega),
      if_neg (by rw [hm.size]; unfold HDR; omega), hs, List.tail_cons]
    rw [hsp, read_front (a := m.body.take k) (List.length_pos_iff.mp (by omega)) (by
      unfold amount
      dsimp only
      rw [hlen, List.length_append, hlen]
      omega)]
    dsimp only
    rw [if_neg (by omega), if_pos (by omega)]
    rfl
  unfold attach
  rw [hr]

/-- **C125**: at the end of the stream every attempt fails with `ENOMSG` and does nothing. -/
theorem C125_end (snd : Send) (json : List Byte → Option Json) (page : Nat) (hasMig : Bool) (caps : List Byte) (lim : List Nat)
    (n : Nat) :
    attempts snd json page hasMig caps n { bytes := [], closed := true, lim } =
      (List.replicate n (.error ENOMSG, []), { bytes := [], closed := true, lim }) := by
  induction n with
  | zero => rfl
  | succ n ih =>
    unfold attempts
    dsimp only
    have : attach snd json page hasMig caps { bytes := [], closed := true, lim } =
        { res := .error ENOMSG, pipe := { bytes := [], closed := true, lim }, sent := [] } := rfl
    rw [this]
    dsimp only
    rw [ih]
    rfl

/-! ## Examples -/

/-- A version request of major version `v`, without capabilities. -/
def exHello (id v : Nat) : Msg := ⟨⟨id, 1, 20, 0, 0⟩, enc 2 v ++ enc 2 7, []⟩

theorem exHello_whole (id v : Nat) (h : id < 65536) : Whole (exHello id v) where
  fits := ⟨h, by simp [exHello], by simp [exHello, U32], by simp [exHello, U32], by simp [exHello, U32]⟩
  type := rfl
  size := rfl
  max := by show (enc 2 v ++ enc 2 7).length ≤ _; rw [List.length_append, enc_length, enc_length]; omega

/-- Refused twice, then accepted; the reset request after it is left. -/
example : (attempts .ok (fun _ => none) 4096 false [0#8] 3
      { bytes := [exHello 1 1, exHello 2 5, exHello 3 0].flatMap (fun m => m.h.bytes ++ m.body) ++ (⟨4, 13, 16, 0, 0⟩ : Hdr).bytes,
        closed := false, lim := [] }).2.bytes = (⟨4, 13, 16, 0, 0⟩ : Hdr).bytes ∧
    (attempts .ok (fun _ => none) 4096 false [0#8] 3
      { bytes := [exHello 1 1, exHello 2 5, exHello 3 0].flatMap (fun m => m.h.bytes ++ m.body) ++ (⟨4, 13, 16, 0, 0⟩ : Hdr).bytes,
        closed := false, lim := [] }).1.map (fun r => r.1.toOption.map Caps.maxFds) = [none, none, some 1] := by
  decide +kernel

example : (attempts .ok (fun _ => none) 4096 false [0#8] 3
      { bytes := [exHello 1 1, exHello 2 5].flatMap (fun m => m.h.bytes ++ m.body) ++
          ((exHello 3 0).h.bytes ++ (exHello 3 0).body ++ []), closed := false, lim := [] }).1.map Prod.fst =
    [.error EINVAL, .error EINVAL, .ok {}] :=
  C125_again .ok (fun _ => rfl) (fun _ => none) 4096 false [0#8] (by decide) [exHello 1 1, exHello 2 5]
    (by
      intro m hm
      rcases List.mem_cons.mp hm with rfl | hm
      · exact exHello_whole 1 1 (by decide)
      · rw [List.mem_singleton.mp hm]; exact exHello_whole 2 5 (by decide))
    (by
      intro m hm c ha
      rcases List.mem_cons.mp hm with rfl | hm
      · exact absurd ha.major (by decide)
      · rw [List.mem_singleton.mp hm] at ha; exact absurd ha.major (by decide))
    (exHello 3 0) (exHello_whole 3 0 (by decide))
    ⟨rfl, by decide, by decide, fun _ => rfl, fun h => absurd h (by decide), fun h => absurd h (by decide),
      fun h => absurd h (by decide), by decide⟩ [] false

/-- The first two bytes of the payload arrive alone: the next attempt finds the other two, too few for a header. -/
example : (attempts .ok (fun _ => none) 4096 false [0#8] 2
      { bytes := (exHello 1 0).h.bytes ++ (exHello 1 0).body, closed := false, lim := [16, 2] }).1.map (fun r => r.1.toOption.map Caps.maxFds) =
    [none, none] := by decide +kernel

end Verif.Wire.Pipe
