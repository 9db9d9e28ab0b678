import Verif.Wire.Model
import Mathlib.Data.List.Perm.Basic

/-!
# The descriptors of the socket transport (`lib/tran_sock.c`, `lib/tran.c:456-498`)

C83.  The transport opens a listening socket, connections and command sockets.  What it has opened and not yet closed is
recorded; closing anything else is a fault. -/

namespace Verif.Wire.Life
open Verif
open Verif.Dma (Fd)

/-- `lib/tran_sock.c:47-51` `tran_sock_t`; `none` is -1. -/
structure Ts where
  listen : Option Fd
  conn : Option Fd
  cmd : Option Fd
  deriving DecidableEq, Repr

/-- `tran_data`; the descriptors opened by the transport and not closed; whether the socket exists in the file system. -/
structure St where
  ts : Option Ts
  mine : List Fd
  file : Bool
  deriving DecidableEq, Repr

def St.none : St := ⟨Option.none, [], false⟩

/-- `lib/common.h:121-142` `close_safely`. -/
def close (mine : List Fd) : Option Fd → Res (List Fd)
  | Option.none => .ok mine
  | some f => if f ∈ mine then .ok (mine.erase f) else .fault .oob

/-- Answers of the operating system to `tran_sock_init`: `none` is success.  `nb`: the context does not block. -/
structure InitOS where
  alloc : Bool
  socket : Except Nat Fd
  nb : Bool
  fcntl : Option Nat
  name : Option Nat
  bind : Option Nat
  listen : Option Nat

/-- `lib/tran_sock.c:367-428` `tran_sock_init`. -/
def init (os : InitOS) (st : St) : Res Unit × St :=
  if os.alloc = false then (.err ENOMEM, st)
  else match os.socket with
    | .error e => (.err e, st)
    | .ok f =>
      let st := { st with mine := f :: st.mine }
      match (if os.nb = true then os.fcntl else Option.none) with
      | some e => out st f e
      | Option.none =>
        match os.name with
        | some e => out st f e
        | Option.none =>
          match os.bind with
          | some e => out st f e
          | Option.none =>
            match os.listen with
            | some e => out { st with file := false } f e          -- line 411: `unlink`
            | Option.none => (.ok (), { st with ts := some ⟨some f, Option.none, Option.none⟩, file := true })
where
  /-- lines 414-420 -/
  out (st : St) (f : Fd) (e : Nat) : Res Unit × St :=
    match close st.mine (some f) with
    | .ok l => (.err e, { st with mine := l })
    | .err e => (.err e, st)
    | .fault x => (.fault x, st)

/-- Answers of the operating system and the client to `tran_sock_attach`.  `recv`: `recv_version`, whether a command socket is
wanted and the client takes descriptors. -/
structure AttachOS where
  accept : Except Nat Fd
  recv : Except Nat Bool
  pair : Except Nat (Fd × Fd)
  send : Option Nat

/-- `lib/tran.c:456-498` `tran_negotiate`, the descriptors: the result with the command socket, and what is open after. -/
def negotiate (os : AttachOS) (mine : List Fd) : Res (Option Fd) × List Fd :=
  match os.recv with
  | .error e => (.err e, mine)
  | .ok false => match os.send with
    | some e => (.err e, mine)
    | Option.none => (.ok Option.none, mine)
  | .ok true => match os.pair with
    | .error e => (.err e, mine)
    | .ok (a, b) =>
      match close (a :: b :: mine) (some a) with
      | .err e => (.err e, a :: b :: mine)
      | .fault x => (.fault x, a :: b :: mine)
      | .ok l =>
        match os.send with
        | Option.none => (.ok (some b), l)
        | some e =>
          match close l (some b) with
          | .ok l' => (.err e, l')
          | .err e => (.err e, l)
          | .fault x => (.fault x, l)

/-- `lib/tran_sock.c:447-476` `tran_sock_attach`. -/
def attach (os : AttachOS) (st : St) : Res Unit × St :=
  match st.ts with
  | Option.none => (.fault .assertFail, st)
  | some ts =>
    if ts.conn ≠ Option.none then (.err EINVAL, st)
    else match os.accept with
      | .error e => (.err e, st)
      | .ok f =>
        match negotiate os (f :: st.mine) with
        | (.fault x, l) => (.fault x, { st with mine := l })
        | (.ok c, l) => (.ok (), { st with ts := some { ts with conn := some f, cmd := c }, mine := l })
        | (.err e, l) =>
          match close l (some f) with
          | .ok l' => (.err e, { st with mine := l' })
          | .err e => (.err e, { st with mine := l })
          | .fault x => (.fault x, { st with mine := l })

/-- `lib/tran_sock.c:652-665` `tran_sock_detach`. -/
def detach (st : St) : Res Unit × St :=
  match st.ts with
  | Option.none => (.ok (), st)
  | some ts =>
    match close st.mine ts.conn with
    | .err e => (.err e, st)
    | .fault x => (.fault x, st)
    | .ok l =>
      match close l ts.cmd with
      | .ok l' => (.ok (), { st with ts := some { ts with conn := Option.none, cmd := Option.none }, mine := l' })
      | .err e => (.err e, st)
      | .fault x => (.fault x, st)

/-- `lib/tran_sock.c:667-683` `tran_sock_fini`. -/
def fini (st : St) : Res Unit × St :=
  match st.ts with
  | Option.none => (.ok (), st)
  | some ts =>
    match close st.mine ts.listen with
    | .ok l => (.ok (), { ts := Option.none, mine := l, file := false })
    | .err e => (.err e, st)
    | .fault x => (.fault x, st)

/-- `lib/libvfio-user.c:1843-1870` `vfu_destroy_ctx`, the transport: the reset of the context detaches. -/
def destroy (st : St) : Res Unit × St :=
  match detach st with
  | (.ok (), st') => fini st'
  | r => r

/-- `lib/tran_sock.c:435-445` `tran_sock_get_poll_fd`. -/
def Ts.pollFd (ts : Ts) : Option Fd := if ts.conn ≠ Option.none then ts.conn else ts.listen

/-- `lib/tran_sock.c:641-645`: where the commands of the server go. -/
def Ts.sendFd (ts : Ts) : Option Fd := if ts.cmd = Option.none then ts.conn else ts.cmd

/-! ## Histories -/

/-- What happens to a transport between `vfu_create_ctx` and `vfu_destroy_ctx`: `vfu_attach_ctx`, a reset of the context. -/
inductive Op where
  | attach (os : AttachOS)
  | detach

def step (st : St) : Op → Res Unit × St
  | .attach os => attach os st
  | .detach => detach st

/-- The state after a history, with the results; a fault ends it. -/
def run : St → List Op → St × List (Res Unit)
  | st, [] => (st, [])
  | st, op :: ops =>
    let r := step st op
    if r.1.isFault then (r.2, [r.1]) else ((run r.2 ops).1, r.1 :: (run r.2 ops).2)

/-- The kernel hands out numbers that are not in use. -/
def InitOS.Fresh (os : InitOS) (mine : List Fd) : Prop := ∀ f, os.socket = .ok f → f ∉ mine

structure AttachOS.Fresh (os : AttachOS) (mine : List Fd) : Prop where
  accept : ∀ f, os.accept = .ok f → f ∉ mine
  pair : ∀ f a b, os.accept = .ok f → os.pair = .ok (a, b) → a ∉ f :: mine ∧ b ∉ f :: mine ∧ a ≠ b

def Op.Fresh (op : Op) (mine : List Fd) : Prop := ∀ os, op = .attach os → os.Fresh mine

def AllFresh : St → List Op → Prop
  | _, [] => True
  | st, op :: ops => op.Fresh st.mine ∧ AllFresh (step st op).2 ops

/-! ## C83 -/

/-- What is open is what the fields name, each once. -/
structure Owned (base : List Fd) (ts : Ts) (st : St) : Prop where
  data : st.ts = some ts
  mine : st.mine = ts.cmd.toList ++ ts.conn.toList ++ ts.listen.toList ++ base
  listen : ts.listen ≠ Option.none
  cmd : ts.cmd ≠ Option.none → ts.conn ≠ Option.none
  nodup : st.mine.Nodup
  file : st.file = true

theorem close_head (f : Fd) (l : List Fd) : close (f :: l) (some f) = .ok l := by
  show (if f ∈ f :: l then _ else _) = _
  rw [if_pos List.mem_cons_self, List.erase_cons_head]

/-- C83: creating the transport opens the listening socket or nothing. -/
theorem C83_init {os : InitOS} {base : List Fd} (hb : base.Nodup) (hf : os.Fresh base) :
    let o := init os ⟨Option.none, base, false⟩
    (o.1 = .ok () ∧ ∃ f, os.socket = .ok f ∧ Owned base ⟨some f, Option.none, Option.none⟩ o.2) ∨
    (∃ e, o.1 = .err e ∧ o.2 = ⟨Option.none, base, false⟩) := by
  intro o
  have hout : ∀ f e, init.out ⟨Option.none, f :: base, false⟩ f e = (.err e, ⟨Option.none, base, false⟩) := by
    intro f e
    unfold init.out
    rw [close_head]
  show (o.1 = _ ∧ _) ∨ _
  have : o = init os ⟨Option.none, base, false⟩ := rfl
  unfold init at this
  by_cases ha : os.alloc = false
  · rw [if_pos ha] at this
    exact .inr ⟨_, by rw [this], by rw [this]⟩
  rw [if_neg ha] at this
  cases hs : os.socket with
  | error e =>
    rw [hs] at this
    exact .inr ⟨e, by rw [this], by rw [this]⟩
  | ok f =>
    rw [hs] at this
    dsimp only at this
    cases h1 : (if os.nb = true then os.fcntl else Option.none) with
    | some e =>
      rw [h1] at this
      dsimp only at this
      rw [hout] at this
      exact .inr ⟨e, by rw [this], by rw [this]⟩
    | none =>
    rw [h1] at this
    dsimp only at this
    cases h2 : os.name with
    | some e =>
      rw [h2] at this
      dsimp only at this
      rw [hout] at this
      exact .inr ⟨e, by rw [this], by rw [this]⟩
    | none =>
    rw [h2] at this
    dsimp only at this
    cases h3 : os.bind with
    | some e =>
      rw [h3] at this
      dsimp only at this
      rw [hout] at this
      exact .inr ⟨e, by rw [this], by rw [this]⟩
    | none =>
    rw [h3] at this
    dsimp only at this
    cases h4 : os.listen with
    | some e =>
      rw [h4] at this
      dsimp only at this
      rw [hout] at this
      exact .inr ⟨e, by rw [this], by rw [this]⟩
    | none =>
    rw [h4] at this
    dsimp only at this
    refine .inl ⟨by rw [this], f, rfl, ?_⟩
    rw [this]
    exact ⟨rfl, rfl, (by simp), (fun h => absurd rfl h), List.nodup_cons.mpr ⟨hf f hs, hb⟩, rfl⟩

/-- The command socket of a successful negotiation is the only thing it leaves behind. -/
theorem negotiate_cases (os : AttachOS) (mine : List Fd)
    (hp : ∀ a b, os.pair = .ok (a, b) → a ∉ mine ∧ b ∉ mine ∧ a ≠ b) :
    (∃ e, negotiate os mine = (.err e, mine)) ∨ negotiate os mine = (.ok Option.none, mine) ∨
      ∃ b, b ∉ mine ∧ negotiate os mine = (.ok (some b), b :: mine) := by
  unfold negotiate
  cases os.recv with
  | error e => exact .inl ⟨e, rfl⟩
  | ok w =>
    cases w with
    | false =>
      dsimp only
      cases os.send with
      | some e => exact .inl ⟨e, rfl⟩
      | none => exact .inr (.inl rfl)
    | true =>
      dsimp only
      cases hq : os.pair with
      | error e => exact .inl ⟨e, rfl⟩
      | ok ab =>
        obtain ⟨a, b⟩ := ab
        dsimp only
        rw [close_head]
        dsimp only
        cases os.send with
        | none => exact .inr (.inr ⟨b, (hp a b hq).2.1, rfl⟩)
        | some e =>
          dsimp only
          rw [close_head]
          exact .inl ⟨e, rfl⟩

/-- C83: attaching.  While connected it is refused; a failure, whatever its cause, leaves everything as it was; success adds the
connection, and a command socket if it was negotiated. -/
theorem C83_attach {base : List Fd} {ts : Ts} {st : St} (h : Owned base ts st) {os : AttachOS} (hf : os.Fresh st.mine) :
    let o := attach os st
    (ts.conn ≠ Option.none → o = (.err EINVAL, st)) ∧
    (ts.conn = Option.none →
      (∃ e, o = (.err e, st)) ∨
      ∃ f c, o.1 = .ok () ∧ os.accept = .ok f ∧ Owned base { ts with conn := some f, cmd := c } o.2) := by
  intro o
  have ho : o = attach os st := rfl
  unfold attach at ho
  rw [h.data] at ho
  dsimp only at ho
  constructor
  · intro hc
    rw [ho, if_pos hc]
  · intro hc
    rw [if_neg (by simp [hc])] at ho
    have hcm : ts.cmd = Option.none := by
      by_contra hne
      exact h.cmd hne hc
    cases ha : os.accept with
    | error e =>
      rw [ha] at ho
      exact .inl ⟨e, ho⟩
    | ok f =>
      rw [ha] at ho
      dsimp only at ho
      have hfm := hf.accept f ha
      have hmine := h.mine
      rw [hc, hcm] at hmine
      rcases negotiate_cases os (f :: st.mine) (fun a b hq => hf.pair f a b ha hq) with ⟨e, hn⟩ | hn | ⟨b, hb, hn⟩
      · rw [hn] at ho
        dsimp only at ho
        rw [close_head] at ho
        refine .inl ⟨e, ho.trans ?_⟩
        show (Res.err e, (⟨_, st.mine, st.file⟩ : St)) = _
        rw [← h.data]
      · rw [hn] at ho
        dsimp only at ho
        refine .inr ⟨f, Option.none, by rw [ho], rfl, ?_⟩
        rw [ho]
        refine ⟨rfl, ?_, h.listen, fun hx => absurd rfl hx, List.nodup_cons.mpr ⟨hfm, h.nodup⟩, h.file⟩
        show f :: st.mine = _
        rw [hmine]
        rfl
      · rw [hn] at ho
        dsimp only at ho
        refine .inr ⟨f, some b, by rw [ho], rfl, ?_⟩
        rw [ho]
        refine ⟨rfl, ?_, h.listen, fun _ => (by simp), List.nodup_cons.mpr ⟨hb, List.nodup_cons.mpr ⟨hfm, h.nodup⟩⟩, h.file⟩
        show b :: f :: st.mine = _
        rw [hmine]
        rfl

/-- C83: detaching closes the connection and the command socket. -/
theorem C83_detach {base : List Fd} {ts : Ts} {st : St} (h : Owned base ts st) :
    (detach st).1 = .ok () ∧ Owned base { ts with conn := Option.none, cmd := Option.none } (detach st).2 := by
  obtain ⟨ts', mine, file⟩ := st
  obtain ⟨li, co, cm⟩ := ts
  obtain ⟨h1, h2, h3, h4, h5, h6⟩ := h
  dsimp only at h1 h2 h3 h4 h5 h6
  subst h1 h2 h6
  unfold detach
  dsimp only
  cases co with
  | none =>
    cases cm with
    | none => exact ⟨rfl, rfl, rfl, h3, h4, h5, rfl⟩
    | some c => exact absurd rfl (h4 (by simp))
  | some f =>
    cases cm with
    | none =>
      have hcl := close_head f (li.toList ++ base)
      simp only [Option.toList, List.nil_append, List.cons_append] at hcl h5 ⊢
      rw [hcl]
      exact ⟨rfl, rfl, rfl, h3, fun h => absurd rfl h, (List.nodup_cons.mp h5).2, rfl⟩
    | some c =>
      simp only [Option.toList, List.cons_append, List.nil_append] at h5 ⊢
      have hne : c ≠ f := by
        intro e
        subst e
        exact (List.nodup_cons.mp h5).1 List.mem_cons_self
      have hcl : close (c :: f :: (li.toList ++ base)) (some f) = .ok (c :: (li.toList ++ base)) := by
        show (if f ∈ c :: f :: (li.toList ++ base) then _ else _) = _
        rw [if_pos (by simp), List.erase_cons_tail (by simpa using hne), List.erase_cons_head]
      simp only [Option.toList] at hcl
      rw [hcl]
      dsimp only
      rw [close_head]
      exact ⟨rfl, rfl, rfl, h3, fun h => absurd rfl h, (List.nodup_cons.mp (List.nodup_cons.mp h5).2).2, rfl⟩

/-- C83: destroying the transport closes everything it had opened and removes the socket. -/
theorem C83_destroy {base : List Fd} {ts : Ts} {st : St} (h : Owned base ts st) :
    destroy st = (.ok (), ⟨Option.none, base, false⟩) := by
  obtain ⟨d1, d2⟩ := C83_detach h
  unfold destroy
  cases hd : detach st with
  | mk r st' =>
  rw [hd] at d1 d2
  dsimp only at d1 d2
  subst d1
  dsimp only
  unfold fini
  rw [d2.data]
  dsimp only
  cases hl : ts.listen with
  | none => exact absurd hl h.listen
  | some f =>
    rw [d2.mine]
    dsimp only
    rw [hl]
    show (match close (f :: base) (some f) with
      | .ok l => _
      | .err e => _
      | .fault x => _) = _
    rw [close_head]

/-- C83: over any history the transport has open what its fields name, once each, and closes nothing else. -/
theorem C83_owned {base : List Fd} (ops : List Op) {ts : Ts} {st : St} (h : Owned base ts st) (hf : AllFresh st ops) :
    (∃ ts', ts'.listen = ts.listen ∧ Owned base ts' (run st ops).1) ∧ ∀ r ∈ (run st ops).2, r.isFault = false := by
  induction ops generalizing ts st with
  | nil => exact ⟨⟨ts, rfl, h⟩, fun _ h => by cases h⟩
  | cons op ops ih =>
    have key : ∃ ts', ts'.listen = ts.listen ∧ Owned base ts' (step st op).2 ∧ (step st op).1.isFault = false := by
      cases op with
      | attach os =>
        obtain ⟨a1, a2⟩ := C83_attach h (hf.1 os rfl)
        by_cases hc : ts.conn = Option.none
        · rcases a2 hc with ⟨e, he⟩ | ⟨f, c, h1, _, h3⟩
          · refine ⟨ts, rfl, ?_⟩
            show Owned base ts (attach os st).2 ∧ (attach os st).1.isFault = false
            rw [he]
            exact ⟨h, rfl⟩
          · refine ⟨{ ts with conn := some f, cmd := c }, rfl, h3, ?_⟩
            show (attach os st).1.isFault = false
            rw [h1]
            rfl
        · refine ⟨ts, rfl, ?_⟩
          show Owned base ts (attach os st).2 ∧ (attach os st).1.isFault = false
          rw [a1 hc]
          exact ⟨h, rfl⟩
      | detach =>
        obtain ⟨d1, d2⟩ := C83_detach h
        refine ⟨{ ts with conn := Option.none, cmd := Option.none }, rfl, d2, ?_⟩
        show (detach st).1.isFault = false
        rw [d1]
        rfl
    obtain ⟨ts', k1, k2, k3⟩ := key
    obtain ⟨⟨ts2, i1, i2⟩, i3⟩ := ih k2 hf.2
    unfold run
    dsimp only
    rw [if_neg (by rw [k3]; simp)]
    refine ⟨⟨ts2, i1.trans k1, i2⟩, fun r hr => ?_⟩
    rcases List.mem_cons.mp hr with rfl | hr
    · exact k3
    · exact i3 r hr

/-- C83: the descriptor to poll, and the one commands of the server go to, are open; the first is the connection if there is
one. -/
theorem C83_poll {base : List Fd} {ts : Ts} {st : St} (h : Owned base ts st) :
    (∃ f ∈ st.mine, ts.pollFd = some f ∧ (ts.conn ≠ Option.none → ts.conn = some f) ∧ (ts.conn = Option.none → ts.listen = some f)) ∧
    (ts.conn ≠ Option.none → ∃ f ∈ st.mine, ts.sendFd = some f) := by
  have hm := h.mine
  obtain ⟨ts', mine, file⟩ := st
  obtain ⟨li, co, cm⟩ := ts
  dsimp only at hm
  subst hm
  have hl := h.listen
  have hc := h.cmd
  dsimp only at hl hc
  unfold Ts.pollFd Ts.sendFd
  dsimp only
  cases li with
  | none => exact absurd rfl hl
  | some l =>
    cases co with
    | none => exact ⟨⟨l, by simp, by simp⟩, fun h => absurd rfl h⟩
    | some f =>
      refine ⟨⟨f, by simp, by simp⟩, fun _ => ?_⟩
      cases cm with
      | none => exact ⟨f, by simp, by simp⟩
      | some c => exact ⟨c, by simp, by simp⟩

/-- C83, from creation to destruction: nothing is left, nothing else is closed. -/
theorem C83_life {os : InitOS} {base : List Fd} (hb : base.Nodup) (hf : os.Fresh base) (ops : List Op)
    (hok : (init os ⟨Option.none, base, false⟩).1 = .ok ()) (hfr : AllFresh (init os ⟨Option.none, base, false⟩).2 ops) :
    (∀ r ∈ (run (init os ⟨Option.none, base, false⟩).2 ops).2, r.isFault = false) ∧
      destroy (run (init os ⟨Option.none, base, false⟩).2 ops).1 = (.ok (), ⟨Option.none, base, false⟩) := by
  rcases C83_init hb hf with ⟨_, f, _, h⟩ | ⟨e, he, _⟩
  · obtain ⟨⟨ts, _, h2⟩, h3⟩ := C83_owned ops h hfr
    exact ⟨h3, C83_destroy h2⟩
  · rw [hok] at he
    cases he

/-! ## Example -/

/-- A first client is refused at negotiation, a second is lost, a third has a command socket; then the device goes. -/
example :
    let os : InitOS := ⟨true, .ok 3, true, Option.none, Option.none, Option.none, Option.none⟩
    let ops : List Op := [.attach ⟨.ok 4, .error EINVAL, .ok (5, 6), Option.none⟩, .attach ⟨.ok 4, .ok false, .ok (5, 6), Option.none⟩,
      .attach ⟨.ok 7, .ok false, .ok (5, 6), Option.none⟩, .detach, .attach ⟨.ok 4, .ok true, .ok (5, 6), Option.none⟩]
    let r := run (init os ⟨Option.none, [0, 1, 2], false⟩).2 ops
    r = (⟨some ⟨some 3, some 4, some 6⟩, [6, 4, 3, 0, 1, 2], true⟩, [.err EINVAL, .ok (), .err EINVAL, .ok (), .ok ()]) ∧
      destroy r.1 = (.ok (), ⟨Option.none, [0, 1, 2], false⟩) := by decide +kernel

end Verif.Wire.Life
