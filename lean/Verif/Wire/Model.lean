import Verif.Bytes
import Verif.Dma.Model
import Verif.Region.Model

/-!
# Messages on the socket (`lib/tran_sock.c`, `lib/tran.c`, `lib/libvfio-user.c:1401-1475`)

The socket is a stream of bytes in each direction.  Descriptors travel attached to a byte of the stream.
Numbers are little-endian. -/

namespace Verif.Wire
open Verif
open Verif.Dma (Fd)

/-- `errno` values used here (asm-generic). -/
def EPERM : Nat := 1
def EBADF : Nat := 9
def EPIPE : Nat := 32

/-! ## Headers -/

/-- `include/vfio-user.h:83-94` `struct vfio_user_header`. -/
structure Hdr where
  id : Nat
  cmd : Nat
  size : Nat
  flags : Nat
  err : Nat
  deriving DecidableEq, Repr

def Hdr.ofBytes (b : List Byte) : Hdr :=
  { id := leAt b 0 2, cmd := leAt b 2 2, size := leAt b 4 4, flags := leAt b 8 4, err := leAt b 12 4 }

def Hdr.bytes (h : Hdr) : List Byte := enc 2 h.id ++ enc 2 h.cmd ++ enc 4 h.size ++ enc 4 h.flags ++ enc 4 h.err

/-- `sizeof(struct vfio_user_header)`. -/
def HDR : Nat := 16
/-- Flags, `include/vfio-user.h:88-92`. -/
def TYPE_COMMAND : Nat := 0
def TYPE_REPLY : Nat := 1
def F_NO_REPLY : Nat := 0x10
def F_ERROR : Nat := 0x20
/-- `flags & VFIO_USER_F_TYPE_MASK`. -/
def Hdr.type (h : Hdr) : Nat := h.flags % 16
/-- `flags & VFIO_USER_F_NO_REPLY`. -/
def Hdr.noReply (h : Hdr) : Bool := h.flags.testBit 4
/-- `flags & VFIO_USER_F_ERROR`. -/
def Hdr.error (h : Hdr) : Bool := h.flags.testBit 5

/-- Commands, `include/vfio-user.h:55-74`. -/
def CMD_VERSION : Nat := 1
def CMD_DMA_MAP : Nat := 2
def CMD_DMA_UNMAP : Nat := 3
def CMD_GET_INFO : Nat := 4
def CMD_REGION_INFO : Nat := 5
def CMD_REGION_IO_FDS : Nat := 6
def CMD_IRQ_INFO : Nat := 7
def CMD_SET_IRQS : Nat := 8
def CMD_REGION_READ : Nat := 9
def CMD_REGION_WRITE : Nat := 10
def CMD_DMA_READ : Nat := 11
def CMD_DMA_WRITE : Nat := 12
def CMD_RESET : Nat := 13
def CMD_FEATURE : Nat := 16
def CMD_MIG_READ : Nat := 17
def CMD_MIG_WRITE : Nat := 18

/-- `lib/private.h:60-62` `SERVER_MAX_MSG_SIZE`. -/
def MAX_MSG : Nat := Region.MAX_XFER + 16 + 16

/-- `lib/private.h:68` `SERVER_MAX_ERROR_NO`. -/
def MAX_ERROR_NO : Nat := 4096

/-- `lib/libvfio-user.c:1445-1475` `is_valid_header`. -/
def validHeader (h : Hdr) : Bool :=
  if h.type ≠ TYPE_COMMAND then false
  else if h.size < HDR then false
  else if h.size = HDR ∧ h.cmd ≠ CMD_RESET then false
  else if h.size > MAX_MSG then false
  else true

/-! ## Receiving requests -/

/-- A byte in flight with the descriptors attached to it. -/
abbrev Cell := Byte × List Fd

/-- The incoming direction of a connection.  `closed`: the peer has closed its end.  `lim`: upper bounds on what
the next `recv` calls return (a stream may deliver less than asked for); beyond the list there is no bound. -/
structure Sock where
  cells : List Cell
  closed : Bool
  lim : List Nat
  deriving DecidableEq, Repr

/-- Number of bytes the next `recv` of at most `len` bytes delivers when there are some. -/
def Sock.amount (s : Sock) (len : Nat) : Nat :=
  min (min len s.cells.length) (match s.lim with | [] => len | l :: _ => max l 1)

def Sock.advance (s : Sock) (n : Nat) : Sock := { s with cells := s.cells.drop n, lim := s.lim.tail }

/-- Result of one `recvmsg`/`recv` call: nothing there yet, end of stream, or some cells. -/
inductive Recv where
  | again
  | eof
  | data (cells : List Cell)

/-- One `recvmsg`/`recv` of at most `len > 0` bytes. -/
def Sock.recv (s : Sock) (len : Nat) : Recv × Sock :=
  if s.cells = [] then (if s.closed then .eof else .again, s)
  else (.data (s.cells.take (s.amount len)), s.advance (s.amount len))

/-- Capacity of the control buffer, `lib/tran.h:67`, `lib/libvfio-user.c:1403-1405`. -/
def MAX_FDS : Nat := 1024

/-- The descriptors one `recvmsg` hands over: those attached to the first byte that has any (a receive does not
go past such a message). -/
def cellFds (cells : List Cell) : List Fd := ((cells.map Prod.snd).find? (fun l => !l.isEmpty)).getD []

/-- What `get_request` (`lib/libvfio-user.c:1572-1602`) has in hand when it decides about execution.
`again`: no data.  `lost`: end of stream or a truncated header.  `failed`: another receive error.  `bad`: the
request is to be answered with `errno`.  `req`: a complete request.  `leak`: descriptors that entered the process
and that nothing refers to. -/
inductive In where
  | again
  | lost (errno : Nat) (leak : List Fd)
  | failed (errno : Nat) (leak : List Fd)
  | bad (h : Hdr) (fds : List Fd) (errno : Nat)
  | req (h : Hdr) (body : List Byte) (fds : List Fd)
  deriving DecidableEq, Repr

/-- `lib/tran_sock.c:142-189` `get_msg` for a header, with `lib/tran_sock.c:478-504`,
`lib/libvfio-user.c:1401-1443`.  Messages are allocated successfully. -/
def getHeader (s : Sock) : Except In (Hdr × List Fd) × Sock :=
  match s.recv HDR with
  | (.again, s') => (.error .again, s')
  | (.eof, s') => (.error (.lost ENOMSG []), s')
  | (.data cells, s') =>
    if cells.length < HDR then (.error (.lost ECONNRESET ((cellFds cells).take MAX_FDS)), s')
    else if (cellFds cells).length > MAX_FDS then (.error (.failed EFAULT ((cellFds cells).take MAX_FDS)), s')
    else (.ok (Hdr.ofBytes (cells.map Prod.fst), cellFds cells), s')

/-- `lib/tran_sock.c:506-551` `tran_sock_recv_body`; a blocking socket waits, so `again` stays `EAGAIN` for the
non-blocking one only.  Descriptors attached to the body are discarded by the kernel. -/
def recvBody (s : Sock) (len : Nat) : Except Nat (List Byte) × Sock :=
  match s.recv len with
  | (.again, s') => (.error EAGAIN, s')
  | (.eof, s') => (.error ENOMSG, s')
  | (.data cells, s') =>
    if cells.length ≠ len then (.error EINVAL, s') else (.ok (cells.map Prod.fst), s')

/-- `lib/libvfio-user.c:1580-1602`: the part of `get_request` that reads the message. -/
def next (s : Sock) : In × Sock :=
  match getHeader s with
  | (.error i, s1) => (i, s1)
  | (.ok (h, fds), s1) =>
    if validHeader h = false then (.bad h fds EINVAL, s1)
    else if h.size - HDR > 0 then
      match recvBody s1 (h.size - HDR) with
      | (.error e, s2) => (.bad h fds e, s2)
      | (.ok body, s2) => (.req h body fds, s2)
    else (.req h [] fds, s1)

/-- The first `n` reads. -/
def reads : Nat → Sock → List In
  | 0, _ => []
  | n + 1, s => (next s).1 :: reads n (next s).2

/-! ## Sending -/

/-- The reply body as the handler left it: bytes, or a length with a `NULL` pointer (failed allocation after the
length was set). -/
inductive Body where
  | bytes (l : List Byte)
  | null (len : Nat)
  deriving DecidableEq, Repr

def Body.len : Body → Nat
  | .bytes l => l.length
  | .null n => n

/-- What `sendmsg` does with `total` bytes: an `errno` or the number of bytes taken. -/
abbrev Send := (total : Nat) → Except Nat Nat

/-- The header built by `lib/tran_sock.c:60-91`; `body` counts the bytes after the header. -/
def mkHdr (id cmd : Nat) (isReply : Bool) (body err : Nat) : Hdr :=
  { id := id, cmd := cmd, size := (HDR + body) % U32,
    flags := if isReply then (if err ≠ 0 then TYPE_REPLY + F_ERROR else TYPE_REPLY) else TYPE_COMMAND,
    err := if isReply ∧ err ≠ 0 then err else 0 }

/-- A message put on the wire. -/
structure Sent where
  bytes : List Byte
  fds : List Fd
  deriving DecidableEq, Repr

/-- `lib/tran_sock.c:53-123` `tran_sock_send_iovec`.  A `NULL` buffer of positive length makes `sendmsg` fail with
`EFAULT`, an invalid descriptor with `EBADF`; nothing is sent then. -/
def sendIovec (snd : Send) (id cmd : Nat) (isReply : Bool) (body : Body) (fds : List (Option Fd)) (err : Nat) :
    Except Nat Unit × List Sent :=
  let h := mkHdr id cmd isReply body.len err
  match body with
  | .null (_ + 1) => (.error EFAULT, [])
  | .null 0 => go h [] fds
  | .bytes l => go h l fds
where
  go (h : Hdr) (l : List Byte) (fds : List (Option Fd)) : Except Nat Unit × List Sent :=
    if fds.any Option.isNone then (.error EBADF, [])
    else
      let all := h.bytes ++ l
      match snd all.length with
      | .error e => (.error (if e = EPIPE then ECONNRESET else e), [])
      | .ok n =>
        (if n < h.size then .error ECONNRESET else .ok (), [{ bytes := all.take n, fds := fds.filterMap _root_.id }])

/-- `lib/tran_sock.c:574-610` `tran_sock_reply`. -/
def reply (snd : Send) (h : Hdr) (body : Body) (fds : List (Option Fd)) (err : Nat) : Except Nat Unit × List Sent :=
  sendIovec snd h.id h.cmd true body fds err

/-! ## Receiving replies -/

/-- `lib/tran_sock.c:197-252` `tran_sock_recv_fds` for a reply on a blocking socket.  `none` as data: the buffer of
the caller is left as it was.  There is no room for descriptors (`MSG_CTRUNC`). -/
def recvReply (s : Sock) (id len : Nat) : Except Nat (Option (List Byte)) × Sock :=
  match s.recv HDR with
  | (.again, s') => (.error EAGAIN, s')
  | (.eof, s') => (.error ENOMSG, s')
  | (.data cells, s1) =>
    if cells.length < HDR then (.error ECONNRESET, s1)
    else if cellFds cells ≠ [] then (.error EFAULT, s1)
    else
      let h := Hdr.ofBytes (cells.map Prod.fst)
      if h.id ≠ id then (.error EPROTO, s1)
      else if h.type ≠ TYPE_REPLY then (.error EINVAL, s1)
      else if h.error then (.error (if h.err = 0 ∨ h.err > MAX_ERROR_NO then EINVAL else h.err), s1)
      else if h.size < HDR ∨ h.size > MAX_MSG then (.error EINVAL, s1)
      else if len > 0 ∧ h.size > HDR then
        match ({ s1 with lim := [] } : Sock).recv (min (h.size - HDR) len) with   -- `MSG_WAITALL`
        | (.again, s2) => (.error EAGAIN, s2)
        | (.eof, s2) => (.error ENOMSG, s2)
        | (.data cells, s2) =>
          if cells.length ≠ len then (.error ECONNRESET, s2) else (.ok (some (cells.map Prod.fst)), s2)
      else (.ok none, s1)

/-- `lib/tran_sock.c:266-312,553-571` `tran_sock_recv_msg`: the version request, on a blocking socket. -/
def recvMsg (s : Sock) : Except Nat (Hdr × List Byte) × Sock :=
  match s.recv HDR with
  | (.again, s') => (.error EAGAIN, s')
  | (.eof, s') => (.error ENOMSG, s')
  | (.data cells, s1) =>
    if cells.length < HDR then (.error ECONNRESET, s1)
    else if cellFds cells ≠ [] then (.error EFAULT, s1)
    else
      let h := Hdr.ofBytes (cells.map Prod.fst)
      if h.type ≠ TYPE_COMMAND then (.error EINVAL, s1)
      else if h.size < HDR ∨ h.size > MAX_MSG then (.error EINVAL, s1)
      else if h.size = HDR then (.ok (h, []), s1)
      else
        match ({ s1 with lim := [] } : Sock).recv (h.size - HDR) with   -- `MSG_WAITALL`
        | (.again, s2) => (.error EAGAIN, s2)
        | (.eof, s2) => (.error ENOMSG, s2)
        | (.data cells, s2) =>
          if cells.length ≠ h.size - HDR then (.error ECONNRESET, s2) else (.ok (h, cells.map Prod.fst), s2)

/-! ## Version negotiation -/

/-- A JSON value as far as `lib/tran.c:71-169` looks at it. -/
inductive Json where
  | int (v : Int)
  | bool (b : Bool)
  | obj (fields : List (String × Json))
  | other

/-- `json_object_object_get_ex`: the last field of that name. -/
def Json.get : Json → String → Option Json
  | .obj fs, k => (fs.reverse.find? (fun f => f.1 == k)).map Prod.snd
  | _, _ => none

/-- `json_object_get_int64` clamps to 64 bits; the numbers of the parser are in that range already. -/
def int32 (v : Int) : Int := (v + 2147483648) % 4294967296 - 2147483648
/-- Conversion to `size_t`. -/
def toSize (v : Int) : Nat := (v % 18446744073709551616).toNat

/-- What the client asks for; the defaults of `lib/tran.c:222-223,228,462`. -/
structure Caps where
  maxFds : Int := 1
  maxXfer : Nat := Region.MAX_XFER
  pgsize : Nat := 0
  twin : Bool := false
  deriving DecidableEq, Repr

/-- One optional field: absent leaves the value, a value of the wrong type is an error. -/
def capInt (j : Json) (k : String) (c : Caps) (f : Int → Caps) : Option Caps :=
  match j.get k with
  | none => some c
  | some (.int v) => some (f v)
  | some _ => none

/-- `lib/tran.c:121-137`, the migration object. -/
def capMig (j : Json) (c : Caps) : Option Caps :=
  match j.get "migration" with
  | none => some c
  | some (.obj fs) => capInt (.obj fs) "pgsize" c (fun v => { c with pgsize := toSize v })
  | some _ => none

/-- `lib/tran.c:140-160`, the twin socket object. -/
def capTwin (j : Json) (c : Caps) : Option Caps :=
  match j.get "twin_socket" with
  | none => some c
  | some (.obj fs) =>
    match (Json.obj fs).get "supported" with
    | none => some c
    | some (.bool b) => some { c with twin := b }
    | some _ => none
  | some _ => none

/-- `lib/tran.c:71-169` `tran_parse_version_json`; `none` as JSON: the text does not parse. -/
def parseCaps (j : Option Json) : Option Caps :=
  match j with
  | none => none
  | some top =>
    match top.get "capabilities" with
    | none => some {}
    | some (.obj fs) =>
      let o := Json.obj fs
      match capInt o "max_msg_fds" {} (fun v => { maxFds := int32 v }) with
      | none => none
      | some c1 =>
        match capInt o "max_data_xfer_size" c1 (fun v => { c1 with maxXfer := toSize (int32 v) }) with
        | none => none
        | some c2 =>
          match capMig o c2 with
          | none => none
          | some c3 => capTwin o c3
    | some _ => none

/-- `include/libvfio-user.h:63-64`. -/
def MAJOR : Nat := 0
def MINOR : Nat := 2

/-- `lib/tran.c:172-294` `recv_version` after the message was received: the client's capabilities and minor
version or the `errno` of the refusal.  `json` is the parser applied to the text before the first NUL. -/
def recvVersion (json : List Byte → Option Json) (page : Nat) (hasMig : Bool) (h : Hdr) (body : List Byte) :
    Except Nat (Caps × Nat) :=
  if h.cmd ≠ CMD_VERSION then .error EINVAL
  else if body.length < 4 then .error EINVAL
  else if leAt body 0 2 ≠ MAJOR then .error EINVAL
  else
    let minor := leAt body 2 2
    if body.length = 4 then .ok ({}, minor)
    else if body.getLast? ≠ some 0#8 then .error EINVAL
    else
      match parseCaps (json ((body.drop 4).takeWhile (· != 0#8))) with
      | none => .error EINVAL
      | some c =>
        if hasMig = true ∧ c.pgsize ≠ 0 ∧ c.pgsize ≠ page then .error EINVAL
        else if c.maxFds < 0 ∨ c.maxFds > 1024 then .error EINVAL
        else .ok (c, minor)

/-- Outcome of a negotiation: what the context records, whether a command socket is kept, what was sent. -/
structure Nego where
  res : Except Nat Caps
  twin : Bool
  sent : List Sent

/-- `lib/tran.c:456-498` `tran_negotiate`, `lib/tran.c:413-453` `send_version`.  `recv` is the received message or
the `errno` of `recv_msg` (`lib/tran_sock.c:266-312,553-571`), `wantTwin` whether the transport asks for a command
socket, `pair` the result of `socketpair`, `caps` the text of the server's capabilities. -/
def negotiate (snd : Send) (json : List Byte → Option Json) (page : Nat) (hasMig wantTwin : Bool)
    (pair : Except Nat Fd) (caps : Option Nat → List Byte) (recv : Except Nat (Hdr × List Byte)) : Nego :=
  match recv with
  | .error e => { res := .error e, twin := false, sent := [] }
  | .ok (h, body) =>
    match recvVersion json page hasMig h body with
    | .error e =>
      -- lines 272-288: the refusal is sent, its own failure is ignored
      { res := .error e, twin := false, sent := (reply snd h (.bytes []) [] e).2 }
    | .ok (c, minor) =>
      let answer := fun (fd : Option Fd) (idx : Option Nat) =>
        reply snd { h with cmd := CMD_VERSION }
          (.bytes (enc 2 MAJOR ++ enc 2 (min minor MINOR) ++ caps idx)) (fd.toList.map some) 0
      if c.twin = true ∧ wantTwin = true ∧ c.maxFds > 0 then
        match pair with
        | .error e => { res := .error e, twin := false, sent := [] }
        | .ok fd =>
          match answer (some fd) (some 0) with
          | (.error e, s) => { res := .error e, twin := false, sent := s }
          | (.ok (), s) => { res := .ok c, twin := true, sent := s }
      else
        match answer none none with
        | (.error e, s) => { res := .error e, twin := false, sent := s }
        | (.ok (), s) => { res := .ok c, twin := false, sent := s }

/-! ## DMA over the socket -/

/-- The client during a DMA exchange: from its state and the bytes of the request to a new state and the bytes it
writes back; `none`: it closes the connection. -/
abbrev Peer (σ : Type) := σ → List Byte → σ × Option (List Byte)

/-- One exchange `lib/tran_sock.c:628-650,338-365`: send the request, read the reply.  `inq` are bytes left over on
the socket. -/
structure Xchg (σ : Type) where
  peer : σ
  inq : List Byte
  res : Except Nat (Option (List Byte))
  sent : List Sent

def exchange {σ : Type} (snd : Send) (p : Peer σ) (st : σ) (inq : List Byte) (id cmd : Nat) (data : List Byte)
    (len : Nat) : Xchg σ :=
  match sendIovec snd id cmd false (.bytes data) [] 0 with
  | (.error e, s) => { peer := st, inq, res := .error e, sent := s }
  | (.ok (), s) =>
    let (st', out) := p st (s.flatMap Sent.bytes)
    let sock : Sock := { cells := (inq ++ out.getD []).map (fun b => (b, [])), closed := true, lim := [] }
    let (r, sock') := recvReply sock id len
    { peer := st', inq := sock'.cells.map Prod.fst, res := r, sent := s }

/-- Progress of a transfer. -/
structure Xfer (σ : Type) where
  peer : σ
  inq : List Byte
  id : Nat
  data : List Byte
  res : Res Unit
  sent : List Sent

/-- `struct vfio_user_dma_region_access` in front of the data. -/
def access (addr count : Nat) : List Byte := enc 8 addr ++ enc 8 count

/-- Errors of an exchange, `lib/libvfio-user.c:2336-2346`; the reset of the context on a lost connection is in the
server model. -/
def xferErr (e : Nat) : Nat := if e = ENOMSG ∨ e = ECONNRESET then ENOTCONN else e

/-- The loop `lib/libvfio-user.c:2316-2366`, READ.  `rbuf` is the content of the reply buffer, `acc` the bytes
delivered so far.  The number of rounds is bounded by `fuel`; running out of it is an endless loop. -/
def readLoop {σ : Type} (snd : Send) (p : Peer σ) (max base : Nat) :
    Nat → σ → List Byte → Nat → List Byte → Nat → Nat → List Byte → Xfer σ
  | 0, st, inq, id, _, _, _, acc => { peer := st, inq, id, data := acc, res := .fault .diverge, sent := [] }
  | fuel + 1, st, inq, id, rbuf, remaining, count, acc =>
    if remaining = 0 then { peer := st, inq, id, data := acc, res := .ok (), sent := [] }
    else
      let addr := add64 base count
      let n := min remaining max
      let x := exchange snd p st inq (id % 65536) CMD_DMA_READ (access addr n) (n + 16)
      match x.res with
      | .error e => { peer := x.peer, inq := x.inq, id := id + 1, data := acc, res := .err (xferErr e), sent := x.sent }
      | .ok got =>
        let rbuf' := match got with | some d => d ++ rbuf.drop d.length | none => rbuf
        if leAt rbuf' 0 8 ≠ addr ∨ leAt rbuf' 8 8 ≠ n then
          { peer := x.peer, inq := x.inq, id := id + 1, data := acc, res := .err EINVAL, sent := x.sent }
        else
          let y := readLoop snd p max base fuel x.peer x.inq (id + 1) rbuf' (remaining - n) (count + n)
            (acc ++ (rbuf'.drop 16).take n)
          { y with sent := x.sent ++ y.sent }

/-- The same loop, WRITE.  The reply goes into a local that is not initialised (`lib/libvfio-user.c:2281`): `none`
until the first reply was stored. -/
def writeLoop {σ : Type} (snd : Send) (p : Peer σ) (max base : Nat) (data : List Byte) :
    Nat → σ → List Byte → Nat → Option (List Byte) → Nat → Nat → Xfer σ
  | 0, st, inq, id, _, _, _ => { peer := st, inq, id, data, res := .fault .diverge, sent := [] }
  | fuel + 1, st, inq, id, rbuf, remaining, count =>
    if remaining = 0 then { peer := st, inq, id, data, res := .ok (), sent := [] }
    else
      let addr := add64 base count
      let n := min remaining max
      let x := exchange snd p st inq (id % 65536) CMD_DMA_WRITE (access addr n ++ (data.drop count).take n) 16
      match x.res with
      | .error e => { peer := x.peer, inq := x.inq, id := id + 1, data, res := .err (xferErr e), sent := x.sent }
      | .ok got =>
        match (match got with | some d => some d | none => rbuf) with
        | none => { peer := x.peer, inq := x.inq, id := id + 1, data, res := .fault .uninit, sent := x.sent }
        | some rep =>
          if leAt rep 0 8 ≠ addr ∨ leAt rep 8 8 ≠ n then
            { peer := x.peer, inq := x.inq, id := id + 1, data, res := .err EINVAL, sent := x.sent }
          else
            let y := writeLoop snd p max base data fuel x.peer x.inq (id + 1) (some rep) (remaining - n) (count + n)
            { y with sent := x.sent ++ y.sent }

/-- `lib/libvfio-user.c:2275-2370` `vfu_dma_transfer` READ; allocation of the buffer succeeds; `sg.length + 1`
rounds are enough unless `max` is 0. -/
def dmaRead {σ : Type} (snd : Send) (p : Peer σ) (max : Nat) (st : σ) (inq : List Byte) (id : Nat) (sg : Dma.Sg) :
    Xfer σ :=
  readLoop snd p max (add64 sg.dmaAddr sg.offset) (sg.length + 1) st inq id
    (List.replicate (16 + min sg.length max) 0#8) sg.length 0 []

/-- `lib/libvfio-user.c:2275-2370` `vfu_dma_transfer` WRITE; `data` has `sg.length` bytes. -/
def dmaWrite {σ : Type} (snd : Send) (p : Peer σ) (max : Nat) (st : σ) (inq : List Byte) (id : Nat) (sg : Dma.Sg)
    (data : List Byte) : Xfer σ :=
  if sg.writeable = false then { peer := st, inq, id, data, res := .err EPERM, sent := [] }
  else writeLoop snd p max (add64 sg.dmaAddr sg.offset) data (sg.length + 1) st inq id none sg.length 0

end Verif.Wire
