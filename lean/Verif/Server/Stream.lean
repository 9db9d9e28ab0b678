import Verif.Server.Cause

/-!
# C93: the migration stream arrives unchanged

What the device produced is what the client collected from the replies, and what the device took is what the client was told
it took, over whole conversations. -/

namespace Verif.Server
open Verif
open Verif.Dma (Fd)

/-! ## The two ends -/

/-- What the device hands out in a callback: `read_data` puts bytes into the buffer and returns how many. -/
def Env.handsOut (env : Env) : Call → List Byte
  | .migData (.read s _) => match env.readData s with
    | .ret n d => d.take n
    | .err _ => []
  | _ => []

/-- What the device takes in a callback: `write_data` returns how much of the bytes offered it took. -/
def Env.takesIn (env : Env) : Call → List Byte
  | .migData (.write d) => match env.writeData d with
    | .ok n => d.take n
    | .error _ => []
  | _ => []

/-- What a client finds in a reply to a request for data: the reply's own size field says how much.  Header and size field as in
`include/vfio-user.h` `vfio_user_header` (16 bytes, error flag bit 5), `vfio_user_mig_data` (argsz, size, data). -/
def finds (m : Msg) (w : Wire.Sent) : List Byte :=
  if m.hdr.cmd = 17 ∧ (Wire.Hdr.ofBytes w.bytes).flags.testBit 5 = false then (w.bytes.drop 24).take (leAt w.bytes 20 4) else []

/-- What a client knows to be delivered by a reply to a request with data: everything, unless the reply is an error. -/
def delivers (m : Msg) (w : Wire.Sent) : List Byte :=
  if m.hdr.cmd = 18 ∧ (Wire.Hdr.ofBytes w.bytes).flags.testBit 5 = false then (m.body.drop 8).take (leAt m.body 4 4) else []

/-- The bytes of a conversation, call by call. -/
def strand (f : St → Op → Out → List Byte) (cfg : Cfg) : St → List Op → List Byte
  | _, [] => []
  | st, op :: ops => f st op (call cfg st op) ++ strand f cfg (call cfg st op).st ops

/-- At the device. -/
def atDevice (g : Env → Call → List Byte) (_ : St) (op : Op) (o : Out) : List Byte :=
  match op.env? with
  | some env => (calls o.evs).flatMap (g env)
  | none => []

/-- At the client. -/
def atClient (g : Msg → Wire.Sent → List Byte) (st : St) (op : Op) (o : Out) : List Byte :=
  match op.subject st with
  | some m => (sents o.evs).flatMap (g m)
  | none => []

/-- The device's migration callbacks: no more bytes than asked for, all the bytes offered or an error. -/
structure Env.Streams (env : Env) : Prop where
  fits : ∀ s n d, env.readData s = .ret n d → n ≤ s ∧ n ≤ d.length
  readErr : ∀ s e, env.readData s = .err e → Errno e
  whole : ∀ d n, env.writeData d = .ok n → n = d.length
  writeErr : ∀ d e, env.writeData d = .error e → Errno e

def Op.Streams (op : Op) : Prop := ∀ env, op.env? = some env → env.Streams

/-- What the transport delivers; a client that moves data asks for replies. -/
def Attentive (i : Wire.In) : Prop :=
  Real i ∧ ∀ h body fds, i = .req h body fds → h.cmd = 17 ∨ h.cmd = 18 → h.noReply = false

/-! ## One request -/

section
variable {cfg : Cfg} {env : Env} {st : St} {m : Msg}

/-- A request that is not about data leaves the two streams alone. -/
theorem other_silent (h17 : m.hdr.cmd ≠ 17) (h18 : m.hdr.cmd ≠ 18) {l : List Call} (h : ∀ c ∈ l, Prompts m c) :
    l.flatMap env.handsOut = [] ∧ l.flatMap env.takesIn = [] := by
  constructor
  all_goals
    rw [List.flatMap_eq_nil_iff]
    intro c hc
    have := h c hc
    cases c with
    | migData e =>
      cases e with
      | read s r => exact absurd this.1 h17
      | write d => exact absurd this.1 h18
    | _ => rfl

theorem pause_silent {l : List Call} (h : ∀ c ∈ l, c.Pause) : l.flatMap env.handsOut = [] ∧ l.flatMap env.takesIn = [] := by
  constructor
  all_goals
    rw [List.flatMap_eq_nil_iff]
    intro c hc
    obtain ⟨r, rfl⟩ := h c hc
    rfl

theorem farewell_silent {l : List Call} (h : ∀ c ∈ l, Farewell c) : l.flatMap env.handsOut = [] ∧ l.flatMap env.takesIn = [] := by
  constructor
  all_goals
    rw [List.flatMap_eq_nil_iff]
    intro c hc
    have := h c hc
    cases c <;> first | rfl | cases this

theorem failed_finds {w : Wire.Sent} (h : (Wire.Hdr.ofBytes w.bytes).flags.testBit 5 = true) : finds m w = [] ∧ delivers m w = [] := by
  unfold finds delivers
  rw [if_neg (by rw [h]; simp), if_neg (by rw [h]; simp)]
  exact ⟨rfl, rfl⟩

theorem calls_data (evs : List Mig.DataEv) (q : Bool) : calls (evs.map fun e => Ev.call (.migData e) q) = evs.map Call.migData := by
  induction evs with
  | nil => rfl
  | cons e evs ih =>
    simp only [List.map_cons]
    unfold calls at ih ⊢
    rw [List.filterMap_cons]
    simp only [ih]

theorem tells_flag {w : Wire.Sent} {x : Nat} {l : List Byte} (h : Tells w x l) :
    (x = 0 → (Wire.Hdr.ofBytes w.bytes).flags.testBit 5 = false) ∧ (x ≠ 0 → (Wire.Hdr.ofBytes w.bytes).flags.testBit 5 = true) := by
  rw [h.2]
  exact ⟨fun h => by simp [h], fun h => by simp [h]⟩

/-- What the handler of a read answers, against what the device handed out. -/
theorem read_both (hs : env.Streams) (ha : env.alloc = true) (hc : m.hdr.cmd = 17) {l : List Byte}
    (ho : (exec cfg env st m).out = .bytes l) {w : Wire.Sent} (ht : Tells w (replyErr (exec cfg env st m).res % U32) l) :
    finds m w = (calls (exec cfg env st m).evs).flatMap env.handsOut := by
  obtain ⟨hf0, hf1⟩ := tells_flag ht
  obtain ⟨⟨hb, hb1, hb2⟩, _⟩ := ht
  have hex : exec cfg env st m = Done.pure st m.fds (Mig.dataRead true env.readData st.mig st.maxXfer m.body).1
      (nullOut true (Mig.dataRead true env.readData st.mig st.maxXfer m.body).1 (m.body.length + leAt m.body 4 4))
      ((Mig.dataRead true env.readData st.mig st.maxXfer m.body).2.map fun e => .call (.migData e) st.quiesced) := by
    rw [exec_migRead hc]
    unfold migRead
    rw [ha]
  have hev : calls (exec cfg env st m).evs = (Mig.dataRead true env.readData st.mig st.maxXfer m.body).2.map Call.migData := by
    rw [hex]; exact calls_data ..
  have hres : (exec cfg env st m).res = (Mig.dataRead true env.readData st.mig st.maxXfer m.body).1.map fun _ => () := by
    rw [hex]; rfl
  have hout : ∀ x, (Mig.dataRead true env.readData st.mig st.maxXfer m.body).1 = .ok x → x = l := by
    intro x hx
    rw [hex, hx] at ho
    have : Wire.Body.bytes x = .bytes l := ho
    cases this
    rfl
  rw [hev]
  rw [hres] at hf0 hf1
  clear hex hev hres ho
  by_cases h : Mig.ReadAllowed st.mig st.maxXfer m.body
  · obtain ⟨room, _, hev⟩ := Mig.C23_read_call env.readData st.mig st.maxXfer m.body h
    rw [hev]
    simp only [List.map_cons, List.map_nil, List.flatMap_cons, List.flatMap_nil, List.append_nil, Env.handsOut]
    cases hcb : env.readData (leAt m.body 4 4) with
    | ret n d =>
      obtain ⟨f1, f2⟩ := hs.fits _ _ _ hcb
      obtain ⟨out, g1, _, g3, g4, _⟩ := Mig.C23_read_reply env.readData st.mig st.maxXfer m.body h n d hcb f1 f2
      cases hout out g1
      rw [g1] at hf0
      dsimp only
      unfold finds
      rw [if_pos ⟨hc, hf0 rfl⟩, hb2, show (20 : Nat) = hb.length + 4 by omega, leAt_append_right, g3,
        show (24 : Nat) = hb.length + 8 by omega, ← List.drop_drop, List.drop_left, g4]
    | err e =>
      have he := hs.readErr _ _ hcb
      have g1 : (Mig.dataRead true env.readData st.mig st.maxXfer m.body).1 = .err e := by
        obtain ⟨hl, ⟨a, ha, hma⟩, hmx, hz⟩ := h
        have hs := (Mig.saving_num a.num).1 ⟨a, ha, rfl⟩
        unfold Mig.dataRead
        rw [if_neg (by omega), hma]
        dsimp only
        rw [if_neg (by simp only [Mig.PRE_COPY, Mig.STOP_COPY]; omega), if_neg (by omega), if_neg (by omega), if_neg (by simp),
          hcb]
      rw [g1] at hf1
      refine (failed_finds (hf1 ?_)).1
      show e % U32 ≠ 0
      rw [Nat.mod_eq_of_lt he.2]
      exact Nat.pos_iff_ne_zero.mp he.1
  · rw [Mig.C23_read_refused _ _ _ _ _ h] at hf1 ⊢
    exact (failed_finds (hf1 (by decide))).1

/-- What the handler of a write answers, against what the device took. -/
theorem write_both (hs : env.Streams) (hc : m.hdr.cmd = 18) {l : List Byte}
    {w : Wire.Sent} (ht : Tells w (replyErr (exec cfg env st m).res % U32) l) :
    delivers m w = (calls (exec cfg env st m).evs).flatMap env.takesIn := by
  obtain ⟨hf0, hf1⟩ := tells_flag ht
  have hex : exec cfg env st m = Done.pure st m.fds (Mig.dataWrite env.writeData st.mig st.maxXfer m.body).1 (.bytes [])
      ((Mig.dataWrite env.writeData st.mig st.maxXfer m.body).2.map fun e => .call (.migData e) st.quiesced) := by
    rw [exec_migWrite hc]
    rfl
  have hev : calls (exec cfg env st m).evs = (Mig.dataWrite env.writeData st.mig st.maxXfer m.body).2.map Call.migData := by
    rw [hex]; exact calls_data ..
  have hres : (exec cfg env st m).res = (Mig.dataWrite env.writeData st.mig st.maxXfer m.body).1.map fun _ => () := by
    rw [hex]; rfl
  rw [hev]
  rw [hres] at hf0 hf1
  clear hex hev hres
  by_cases h : Mig.WriteAllowed st.mig st.maxXfer m.body
  · have hw : Mig.dataWrite env.writeData st.mig st.maxXfer m.body =
        (match env.writeData ((m.body.drop 8).take (leAt m.body 4 4)) with
        | .error e => (.err e, [.write ((m.body.drop 8).take (leAt m.body 4 4))])
        | .ok n => if n ≠ leAt m.body 4 4 then (.err EINVAL, [.write ((m.body.drop 8).take (leAt m.body 4 4))])
          else (.ok [], [.write ((m.body.drop 8).take (leAt m.body 4 4))])) := by
      obtain ⟨h0, h1, h2, h3⟩ := h
      unfold Mig.dataWrite
      rw [if_neg (by omega), h0]
      dsimp only
      rw [if_neg (by decide), if_neg (by omega), if_neg (by omega), if_neg (by omega)]
      cases env.writeData ((m.body.drop 8).take (leAt m.body 4 4)) <;> rfl
    have hlen : ((m.body.drop 8).take (leAt m.body 4 4)).length = leAt m.body 4 4 := by
      have := h.2.2.2
      simp only [List.length_take, List.length_drop]
      omega
    revert hlen hw hf0 hf1
    unfold delivers
    generalize (m.body.drop 8).take (leAt m.body 4 4) = d
    intro hf0 hf1 hw hlen
    rw [hw] at hf0 hf1
    rw [hw]
    cases hcb : env.writeData d with
    | error e =>
      rw [hcb] at hf1
      have he := hs.writeErr _ _ hcb
      have : (Wire.Hdr.ofBytes w.bytes).flags.testBit 5 = true := by
        refine hf1 ?_
        show e % U32 ≠ 0
        rw [Nat.mod_eq_of_lt he.2]
        exact Nat.pos_iff_ne_zero.mp he.1
      rw [if_neg (by rw [this]; simp)]
      simp [Env.takesIn, hcb]
    | ok n =>
      rw [hcb] at hf0
      have hn : n = leAt m.body 4 4 := (hs.whole _ _ hcb).trans hlen
      dsimp only at hf0 ⊢
      rw [if_neg (show ¬ n ≠ leAt m.body 4 4 from fun h => h hn)] at hf0 ⊢
      rw [if_pos ⟨hc, hf0 rfl⟩]
      simp [Env.takesIn, hcb, hn, ← hlen]
  · rw [Mig.C23_write_refused _ _ _ _ h] at hf1 ⊢
    exact (failed_finds (hf1 (by decide))).2

end

/-! ## A conversation -/

section
variable {cfg : Cfg} {p : Pci.Pci} (hsz : ∀ r ∈ cfg.tbl, r.size < U32) (hl : LayoutOk cfg.tbl p) (ht : TableOk cfg.tbl)
include hsz hl ht

theorem step_both {dma : Option (Nat × Nat)} {st : St} (hc : Core cfg dma p st) (hk : KeptGood Attentive st) (op : Op)
    (hf : op.Fair) (hs : op.Streams) (hg : op.Good Attentive) (hno : (call cfg st op).res.isFault = false) :
    atClient finds st op (call cfg st op) = atDevice Env.handsOut st op (call cfg st op) ∧
      atClient delivers st op (call cfg st op) = atDevice Env.takesIn st op (call cfg st op) := by
  have hsub : ∀ m, op.subject st = some m → m.hdr.cmd = 17 ∨ m.hdr.cmd = 18 → m.hdr.noReply = false := by
    intro m hm hcm
    cases op with
    | run env i =>
      cases i with
      | req h body fds => cases hm; exact hg.2 _ _ _ rfl hcm
      | _ => cases hm
    | quiesced env e =>
      simp only [Op.subject] at hm
      cases hp : st.pending with
      | none => rw [hp] at hm; cases hm
      | ctxReset => rw [hp] at hm; cases hm
      | msg m' => rw [hp] at hm; cases hm; exact (hk m hp).2 _ _ _ rfl hcm
    | _ => cases hm
  have htr := call_trace ht (fun m hm => (hk m hm).1) op hf hno
  revert htr hs
  generalize call cfg st op = o
  intro hs htr
  have quiet : (∀ env : Env, (calls o.evs).flatMap env.handsOut = [] ∧ (calls o.evs).flatMap env.takesIn = []) →
      atDevice Env.handsOut st op o = [] ∧ atDevice Env.takesIn st op o = [] := by
    intro h
    unfold atDevice
    cases op.env? with
    | none => exact ⟨rfl, rfl⟩
    | some env => exact h env
  have mute : sents o.evs = [] → atClient finds st op o = [] ∧ atClient delivers st op o = [] := by
    intro h
    unfold atClient
    rw [h]
    cases op.subject st <;> exact ⟨rfl, rfl⟩
  cases htr with
  | idle h1 h2 =>
    rw [(mute h1).1, (mute h1).2, (quiet fun _ => pause_silent h2).1, (quiet fun _ => pause_silent h2).2]
    exact ⟨rfl, rfl⟩
  | bad h1 h2 =>
    have h3 := quiet fun env => by rw [h2]; exact ⟨rfl, rfl⟩
    rw [h3.1, h3.2]
    unfold atClient
    rw [h1]
    exact ⟨rfl, rfl⟩
  | refused m e h1 h2 h3 h4 h5 =>
    rw [(quiet fun _ => pause_silent h3).1, (quiet fun _ => pause_silent h3).2]
    cases hn : m.hdr.noReply with
    | true => exact mute (h4 hn)
    | false =>
      obtain ⟨w, w1, w2⟩ := h5 hn
      have := failed_finds (m := m) (w := w) (by rw [w2.error]; exact decide_eq_true (Nat.pos_iff_ne_zero.mp h2.1))
      unfold atClient
      rw [h1, w1]
      simp [this.1, this.2]
  | executed env q m l pp h1 h2 h3 h4 h5 h6 h7 h8 h9 =>
    have hpr := exec_prompts hsz hl (env := env) (st := { st with quiesced := q }) (m := m) hc.pci
    obtain ⟨p1, p2⟩ := pause_silent (env := env) h6
    have hdev : atDevice Env.handsOut st op o = (calls (exec cfg env { st with quiesced := q } m).evs).flatMap env.handsOut ∧
        atDevice Env.takesIn st op o = (calls (exec cfg env { st with quiesced := q } m).evs).flatMap env.takesIn := by
      unfold atDevice
      rw [h3, h7]
      dsimp only
      rw [List.flatMap_append, List.flatMap_append, p1, p2]
      exact ⟨rfl, rfl⟩
    rw [hdev.1, hdev.2]
    by_cases hcm : m.hdr.cmd = 17 ∨ m.hdr.cmd = 18
    · obtain ⟨w, w1, w2⟩ := h9 (hsub m h2 hcm)
      have hcl : atClient finds st op o = finds m w ∧ atClient delivers st op o = delivers m w := by
        unfold atClient
        rw [h2, w1]
        simp
      rw [hcl.1, hcl.2]
      rcases hcm with hcm | hcm
      · refine ⟨read_both (hs env h3) h1.alloc hcm h5 w2, ?_⟩
        unfold delivers
        rw [if_neg (by rw [hcm]; simp)]
        symm
        rw [List.flatMap_eq_nil_iff]
        intro c hcl
        have := hpr c hcl
        cases c with
        | migData e =>
          cases e with
          | read s r => rfl
          | write d => rw [this.1] at hcm; cases hcm
        | _ => rfl
      · refine ⟨?_, write_both (hs env h3) hcm w2⟩
        unfold finds
        rw [if_neg (by rw [hcm]; simp)]
        symm
        rw [List.flatMap_eq_nil_iff]
        intro c hcl
        have := hpr c hcl
        cases c with
        | migData e =>
          cases e with
          | read s r => rw [this.1] at hcm; cases hcm
          | write d => rfl
        | _ => rfl
    · have h17 : m.hdr.cmd ≠ 17 := fun h => hcm (.inl h)
      have h18 : m.hdr.cmd ≠ 18 := fun h => hcm (.inr h)
      obtain ⟨o1, o2⟩ := other_silent (env := env) h17 h18 hpr
      rw [o1, o2]
      unfold atClient
      rw [h2]
      constructor
      all_goals
        dsimp only
        rw [List.flatMap_eq_nil_iff]
        intro w _
        first
          | (unfold finds; rw [if_neg (fun h => h17 h.1)])
          | (unfold delivers; rw [if_neg (fun h => h18 h.1)])
  | reset env q pp h1 h2 h3 h4 =>
    rw [(mute h2).1, (mute h2).2]
    have hfw := farewell_resetQuiesced (cfg := cfg) env { st with quiesced := q }
    have := quiet fun env' => by
      rw [h4, List.flatMap_append, List.flatMap_append, (pause_silent h3).1, (pause_silent h3).2, (farewell_silent hfw).1,
        (farewell_silent hfw).2]
      exact ⟨rfl, rfl⟩
    rw [this.1, this.2]
    exact ⟨rfl, rfl⟩

/-- C93: over every conversation in which the socket and memory serve, the client asks for replies to its transfers, and the
device keeps the contract of its migration callbacks: the bytes the client collected are the bytes the device handed out, and
the bytes the client was told are delivered are the bytes the device took; in order, with none lost, repeated or changed. -/
theorem C93_streams (mig : Bool) (dma : Option (Nat × Nat)) (ops : List Op)
    (ho : ∀ op ∈ ops, op.Fair ∧ op.OSOk ∧ op.Streams ∧ op.Good Attentive) (hno : Completes cfg (init cfg mig dma p) ops) :
    strand (atClient finds) cfg (init cfg mig dma p) ops = strand (atDevice Env.handsOut) cfg (init cfg mig dma p) ops ∧
      strand (atClient delivers) cfg (init cfg mig dma p) ops = strand (atDevice Env.takesIn) cfg (init cfg mig dma p) ops := by
  have hc : Core cfg dma p (init cfg mig dma p) := core_init cfg mig dma p
  have hk : KeptGood Attentive (init cfg mig dma p) := fun m hm => by cases hm
  revert hc hk hno
  generalize init cfg mig dma p = st
  induction ops generalizing st with
  | nil => exact fun _ _ _ => ⟨rfl, rfl⟩
  | cons op ops ih =>
    intro hno hc hk
    obtain ⟨h1, h2, h3, h4⟩ := ho op (.head _)
    obtain ⟨a, b⟩ := step_both hsz hl ht hc hk op h1 h3 h4 hno.1
    obtain ⟨a', b'⟩ := ih (fun o h => ho o (.tail _ h)) _ hno.2 ((core_kept cfg dma p).call hc op h2)
      ((closed_true cfg Attentive).call st hk op h4).2
    simp only [strand]
    rw [a, b, a', b']
    exact ⟨rfl, rfl⟩

end

/-- C93: two devices, and a client that gives to the second what it collected from the first: the second takes what the first
handed out. -/
theorem C93_carried {cfg cfg' : Cfg} {p p' : Pci.Pci} (h1 : ∀ r ∈ cfg.tbl, r.size < U32) (h1' : ∀ r ∈ cfg'.tbl, r.size < U32)
    (h2 : LayoutOk cfg.tbl p) (h2' : LayoutOk cfg'.tbl p') (h3 : TableOk cfg.tbl) (h3' : TableOk cfg'.tbl)
    (dma dma' : Option (Nat × Nat)) (src dst : List Op)
    (ho : ∀ op ∈ src, op.Fair ∧ op.OSOk ∧ op.Streams ∧ op.Good Attentive)
    (ho' : ∀ op ∈ dst, op.Fair ∧ op.OSOk ∧ op.Streams ∧ op.Good Attentive)
    (hno : Completes cfg (init cfg true dma p) src) (hno' : Completes cfg' (init cfg' true dma' p') dst)
    (hfwd : strand (atClient delivers) cfg' (init cfg' true dma' p') dst = strand (atClient finds) cfg (init cfg true dma p) src) :
    strand (atDevice Env.takesIn) cfg' (init cfg' true dma' p') dst =
      strand (atDevice Env.handsOut) cfg (init cfg true dma p) src := by
  rw [← (C93_streams h1' h2' h3' true dma' dst ho' hno').2, hfwd, (C93_streams h1 h2 h3 true dma src ho hno).1]

/-! ## A migration -/

section
open Demo

/-- The device has up to three bytes; it has an error to report. -/
def ready3 : Env := { env with readData := fun s => .ret (min s 3) [1#8, 2#8, 3#8] }
def sulky : Env := { env with readData := fun _ => .err 5 }

theorem ready3_streams : ready3.Streams where
  fits := by
    intro s n d h
    cases h
    exact ⟨Nat.min_le_left .., Nat.min_le_right ..⟩
  readErr := fun _ _ h => by cases h
  whole := by
    intro d n h
    have h : Except.ok d.length = (Except.ok n : Except Nat Nat) := h
    cases h
    rfl
  writeErr := fun _ _ h => by cases h

theorem sulky_streams : sulky.Streams where
  fits := fun _ _ _ h => by cases h
  readErr := fun _ _ h => by cases h; exact ⟨by decide, by decide⟩
  whole := by
    intro d n h
    have h : Except.ok d.length = (Except.ok n : Except Nat Nat) := h
    cases h
    rfl
  writeErr := fun _ _ h => by cases h

/-- The source: reads in PRE_COPY, with an error of the device in between, and in STOP_COPY. -/
def source : List Op :=
  [.attach (.ok { maxFds := 8, maxXfer := 4096, pgsize := 4096 }), .run sulky (req 1 16 0 (stateBody 6) []),
   .run ready3 (req 2 17 0 (wantBody 3) []), .run sulky (req 3 17 0 (wantBody 3) []), .run sulky (req 4 16 0 (stateBody 3) []),
   .run ready3 (req 5 17 0 (wantBody 5) [])]

/-- The destination: six bytes in three messages, one of which is refused for its first field. -/
def destination : List Op :=
  [.attach (.ok { maxFds := 8, maxXfer := 4096, pgsize := 4096 }), .run sulky (req 1 16 0 (stateBody 4) []),
   .run sulky (req 2 18 0 (giveBody [1, 2, 3, 1]) []), .run sulky (req 3 18 0 (enc 4 8 ++ enc 4 2 ++ [2, 3]) []),
   .run sulky (req 4 18 0 (giveBody [2, 3]) [])]

example : strand (atDevice Env.handsOut) cfg (init cfg true none pci) source = [1, 2, 3, 1, 2, 3] ∧
    strand (atClient finds) cfg (init cfg true none pci) source = [1, 2, 3, 1, 2, 3] ∧
    strand (atDevice Env.takesIn) cfg (init cfg true none pci) destination = [1, 2, 3, 1, 2, 3] ∧
    strand (atClient delivers) cfg (init cfg true none pci) destination = [1, 2, 3, 1, 2, 3] := by
  refine ⟨?_, ?_, ?_, ?_⟩ <;> decide +kernel

theorem attentive_req (id cmd : Nat) (body : List Byte) (h1 : id < 65536) (h2 : cmd < 65536) (h5 : body.length ≤ 1048576 + 16)
    (h6 : body ≠ [] ∨ cmd = 13) : Attentive (req id cmd 0 body []) :=
  ⟨req_real _ _ _ _ _ h1 h2 (by decide) (by decide) h5 h6 (by decide),
    fun h b f he _ => by cases he; simp [hdr, Wire.Hdr.noReply]⟩

theorem ready3_fair : ready3.Fair := fair_env rfl rfl rfl (fun _ _ h => by cases h)
theorem sulky_fair : sulky.Fair := fair_env rfl rfl rfl (fun _ _ h => by cases h)

theorem source_ok : ∀ op ∈ source ++ destination, op.Fair ∧ op.OSOk ∧ op.Streams ∧ op.Good Attentive := by
  have r3 : ∀ {i : Wire.In}, Attentive i → (Op.run ready3 i).Fair ∧ (Op.run ready3 i).OSOk ∧ (Op.run ready3 i).Streams ∧
      (Op.run ready3 i).Good Attentive :=
    fun h => ⟨⟨ready3_fair, h.1⟩, (fun _ h => by cases h; exact os_ok), (fun _ h => by cases h; exact ready3_streams), h⟩
  have sk : ∀ {i : Wire.In}, Attentive i → (Op.run sulky i).Fair ∧ (Op.run sulky i).OSOk ∧ (Op.run sulky i).Streams ∧
      (Op.run sulky i).Good Attentive :=
    fun h => ⟨⟨sulky_fair, h.1⟩, (fun _ h => by cases h; exact os_ok), (fun _ h => by cases h; exact sulky_streams), h⟩
  have at' : ∀ n, (Op.attach n).Fair ∧ (Op.attach n).OSOk ∧ (Op.attach n).Streams ∧ (Op.attach n).Good Attentive :=
    fun n => ⟨trivial, (fun _ h => by cases h), (fun _ h => by cases h), trivial⟩
  intro op hop
  simp only [source, destination, List.cons_append, List.nil_append, List.mem_cons, List.not_mem_nil, or_false] at hop
  rcases hop with rfl | rfl | rfl | rfl | rfl | rfl | rfl | rfl | rfl | rfl | rfl
  · exact at' _
  · exact sk (attentive_req _ _ _ (by decide) (by decide) (by decide) (.inl (by decide)))
  · exact r3 (attentive_req _ _ _ (by decide) (by decide) (by decide) (.inl (by decide)))
  · exact sk (attentive_req _ _ _ (by decide) (by decide) (by decide) (.inl (by decide)))
  · exact sk (attentive_req _ _ _ (by decide) (by decide) (by decide) (.inl (by decide)))
  · exact r3 (attentive_req _ _ _ (by decide) (by decide) (by decide) (.inl (by decide)))
  · exact at' _
  · exact sk (attentive_req _ _ _ (by decide) (by decide) (by decide) (.inl (by decide)))
  · exact sk (attentive_req _ _ _ (by decide) (by decide) (by decide) (.inl (by decide)))
  · exact sk (attentive_req _ _ _ (by decide) (by decide) (by decide) (.inl (by decide)))
  · exact sk (attentive_req _ _ _ (by decide) (by decide) (by decide) (.inl (by decide)))

example : strand (atDevice Env.takesIn) flrDev (init flrDev true none Pci.ex8) destination =
    strand (atDevice Env.handsOut) flrDev (init flrDev true none Pci.ex8) source :=
  C93_carried (by decide) (by decide) flr_layout flr_layout (fun r hr hne => absurd (by revert r; decide) hne)
    (fun r hr hne => absurd (by revert r; decide) hne) none none source destination
    (fun op h => source_ok op (List.mem_append_left _ h)) (fun op h => source_ok op (List.mem_append_right _ h))
    (by refine ⟨?_, ?_, ?_, ?_, ?_, ?_, trivial⟩ <;> decide +kernel) (by refine ⟨?_, ?_, ?_, ?_, ?_, trivial⟩ <;> decide +kernel)
    (by decide +kernel)

/-- C93, why the client must ask for replies: a read without reply is served all the same, and its bytes are lost. -/
theorem C93_unheard :
    let ops := source.take 2 ++ [.run ready3 (req 2 17 0x10 (wantBody 3) [])]
    Completes cfg (init cfg true none pci) ops ∧ Real (req 2 17 0x10 (wantBody 3) []) ∧
      strand (atDevice Env.handsOut) cfg (init cfg true none pci) ops = [1, 2, 3] ∧
      strand (atClient finds) cfg (init cfg true none pci) ops = [] :=
  ⟨by refine ⟨?_, ?_, ?_, trivial⟩ <;> decide +kernel,
    req_real _ _ _ _ _ (by decide) (by decide) (by decide) (by decide) (by decide) (.inl (by decide)) (by decide),
    by decide +kernel, by decide +kernel⟩

/-- C93, why the device must take all or nothing: it takes two bytes of three and says so; the client is told EINVAL. -/
theorem C93_short :
    let e : Env := { sulky with writeData := fun _ => .ok 2 }
    let ops := destination.take 2 ++ [.run e (req 2 18 0 (giveBody [1, 2, 3]) [])]
    Completes cfg (init cfg true none pci) ops ∧
      strand (atDevice Env.takesIn) cfg (init cfg true none pci) ops = [1, 2] ∧
      strand (atClient delivers) cfg (init cfg true none pci) ops = [] :=
  ⟨by refine ⟨?_, ?_, ?_, trivial⟩ <;> decide +kernel, by decide +kernel, by decide +kernel⟩

end

end Verif.Server
