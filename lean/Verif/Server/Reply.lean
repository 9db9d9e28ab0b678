import Verif.Server.Quiesce
import Mathlib.Data.List.Forall2
import Verif.Wire.Frame
import Mathlib.Tactic.SplitIfs

/-! # Requests and replies: C24, C47, C49, C51, C54 -/

namespace Verif.Server
open Verif
open Verif.Dma (Fd)

/-! ## What handlers leave to be sent -/

/-- Regions with capabilities have a descriptor (`vfu_setup_region` enforces it unless the region is set up twice). -/
def TableOk (tbl : List Region.Reg) : Prop := ∀ r ∈ tbl, r.areas ≠ [] → r.fd ≠ none

theorem nullOut_bytes {α : Type} (r : Res α) (n : Nat) : nullOut true r n = .bytes [] := rfl

theorem featureErrOut_bytes (env : Env) (st : St) (body : List Byte) (ha : env.alloc = true) :
    featureErrOut env st body = .bytes [] ∨ featureErrOut env st body = .bytes body := by
  unfold featureErrOut
  dsimp only
  rw [ha]
  have ht : ∀ p : Prop, p ∨ true = true := fun _ => .inr rfl
  rw [if_pos (ht _)]
  split_ifs
  all_goals first
    | exact .inl rfl
    | exact .inr rfl
    | (rename_i h; exact absurd (.inr (.inr rfl)) h)
    | (rename_i h; exact h.elim)
    | skip
  split
  · rw [if_pos (ht _)]; exact .inl rfl
  · exact .inl rfl

theorem accessErrOut_bytes (h : Region.Handler) (tbl : List Region.Reg) (sc w : Bool) (body : List Byte) :
    ∃ l, accessErrOut h true tbl sc w body = .bytes l := by
  unfold accessErrOut
  split_ifs
  · exact ⟨_, rfl⟩
  · rename_i h; cases h
  · split <;> exact ⟨_, rfl⟩
  · split <;> exact ⟨_, rfl⟩

theorem pure_bytes {st : St} {fds : List Fd} {r : Res (List Byte)} {o : Wire.Body} {evs : List Ev}
    (h : ∃ l, o = .bytes l) : ∃ l, (Done.pure st fds r o evs).out = .bytes l := by
  cases r with
  | ok l => exact ⟨l, rfl⟩
  | err e => exact h
  | fault f => exact h

theorem reply_bytes {st : St} {fds : List Fd} {r : Res Region.Reply} {o : Wire.Body}
    (h : ∃ l, o = .bytes l) : ∃ l, (Done.reply st fds r o).out = .bytes l := by
  cases r with
  | ok l => exact ⟨_, rfl⟩
  | err e => exact h
  | fault f => exact h

/-- With memory available a handler leaves a proper buffer. -/
theorem exec_bytes (cfg : Cfg) (env : Env) (st : St) (m : Msg) (ha : env.alloc = true) :
    ∃ l, (exec cfg env st m).out = .bytes l := by
  refine exec_elim (P := fun d => ∃ l, d.out = .bytes l) cfg env st m ?_ ?_ ?_ ?_ ?_ ?_ ?_ ?_ ?_ ?_ ?_ ?_ ?_ ?_ ?_
  · exact fun _ _ => ⟨_, rfl⟩
  · exact fun c _ _ => dmaMap_elim (P := fun d => ∃ l, d.out = .bytes l) cfg env st c m.body m.fds (fun _ _ => ⟨_, rfl⟩) (fun _ _ => ⟨_, rfl⟩)
  · exact fun c _ _ => dmaUnmap_elim (P := fun d => ∃ l, d.out = .bytes l) cfg env st c m.body m.fds (fun _ _ => ⟨_, rfl⟩) (fun _ _ _ _ => ⟨_, rfl⟩)
  · exact fun _ => pure_bytes (by rw [ha]; exact ⟨_, rfl⟩)
  · exact fun _ => reply_bytes (by rw [ha]; exact ⟨_, rfl⟩)
  · exact fun _ => reply_bytes (by rw [ha]; exact ⟨_, rfl⟩)
  · exact fun _ => pure_bytes (by rw [ha]; exact ⟨_, rfl⟩)
  · exact fun _ => ⟨_, rfl⟩
  · exact fun _ => pure_bytes (by rw [ha]; exact accessErrOut_bytes ..)
  · exact fun _ => pure_bytes (by rw [ha]; exact accessErrOut_bytes ..)
  · exact fun _ => ⟨_, rfl⟩
  · exact fun _ => pure_bytes (by rcases featureErrOut_bytes env st m.body ha with h | h <;> exact ⟨_, h⟩)
  · exact fun _ => pure_bytes (by rw [ha]; exact ⟨_, rfl⟩)
  · exact fun _ => pure_bytes ⟨_, rfl⟩
  · exact fun _ => ⟨_, rfl⟩

theorem regionInfo_fds {alloc : Bool} {tbl : List Region.Reg} {body : List Byte} {r : Region.Reply}
    (h : Region.regionInfo alloc tbl body = .ok r) :
    r.fds = [] ∨ ∃ x ∈ tbl, x.areas ≠ [] ∧ r.fds = [x.fd] := by
  unfold Region.regionInfo at h
  by_cases h1 : body.length < 32 ∨ leAt body 0 4 < 32
  · rw [if_pos h1] at h; cases h
  rw [if_neg h1] at h
  cases ht : tbl[leAt body 8 4]? with
  | none => rw [ht] at h; cases h
  | some x =>
    rw [ht] at h
    dsimp only at h
    by_cases ha : alloc = false
    · rw [if_pos ha] at h; cases h
    rw [if_neg ha] at h
    generalize hcaps : (if x.size > 0 then Region.capsSize x else 0) = caps at h
    by_cases hc : caps > 0 ∧ leAt body 0 4 ≥ (32 + caps) % U32
    · rw [if_pos hc] at h
      by_cases hl : min (32 + caps) (leAt body 0 4) < 32 + caps
      · rw [if_pos hl] at h; cases h
      rw [if_neg hl] at h
      cases h
      refine .inr ⟨x, List.mem_of_getElem? ht, ?_, rfl⟩
      intro he
      have : caps = 0 := by
        rw [← hcaps]
        simp [Region.capsSize, he]
      omega
    · rw [if_neg hc] at h; cases h; exact .inl rfl

theorem regionIoFds_fds {alloc : Bool} {tbl : List Region.Reg} {body : List Byte} {r : Region.Reply}
    (h : Region.regionIoFds alloc tbl body = .ok r) : ∃ fds : List Fd, r.fds = fds.map some := by
  unfold Region.regionIoFds at h
  by_cases h1 : body.length < 16
  · rw [if_pos h1] at h; cases h
  rw [if_neg h1] at h
  by_cases h2 : leAt body 4 4 ≠ 0 ∨ leAt body 12 4 ≠ 0
  · rw [if_pos h2] at h; cases h
  rw [if_neg h2] at h
  cases ht : tbl[leAt body 8 4]? with
  | none => rw [ht] at h; cases h
  | some x =>
    rw [ht] at h
    dsimp only at h
    generalize (if min ((leAt body 0 4 - 16) / 48) x.subs.length ≥ x.subs.length then x.subs.length else 0) = room at h
    split at h
    · cases h
    split at h
    · cases h
    split at h
    · cases h
    split at h
    · split at h
      · cases h
      split at h
      · cases h
      · cases h
      · cases h; exact ⟨_, rfl⟩
    · cases h; exact ⟨[], rfl⟩

/-- Which descriptors a reply carries. -/
theorem exec_fds (cfg : Cfg) (env : Env) (st : St) (m : Msg) :
    (m.hdr.cmd ≠ 5 ∧ m.hdr.cmd ≠ 6 → (exec cfg env st m).outFds = []) ∧
    (m.hdr.cmd = 5 → (exec cfg env st m).outFds.length ≤ 1) ∧
    (TableOk cfg.tbl → ∃ fds : List Fd, (exec cfg env st m).outFds = fds.map some) := by
  have triv : ∀ d : Done, d.outFds = [] → ((m.hdr.cmd ≠ 5 ∧ m.hdr.cmd ≠ 6 → d.outFds = []) ∧
      (m.hdr.cmd = 5 → d.outFds.length ≤ 1) ∧ (TableOk cfg.tbl → ∃ fds : List Fd, d.outFds = fds.map some)) :=
    fun d hd => ⟨fun _ => hd, fun _ => by simp [hd], fun _ => ⟨[], by simp [hd]⟩⟩
  refine exec_elim (P := fun d => ((m.hdr.cmd ≠ 5 ∧ m.hdr.cmd ≠ 6 → d.outFds = []) ∧
      (m.hdr.cmd = 5 → d.outFds.length ≤ 1) ∧ (TableOk cfg.tbl → ∃ fds : List Fd, d.outFds = fds.map some)))
      cfg env st m ?_ ?_ ?_ ?_ ?_ ?_ ?_ ?_ ?_ ?_ ?_ ?_ ?_ ?_ ?_
  · exact fun _ _ => triv _ rfl
  · exact fun c _ _ => triv _ (dmaMap_elim (P := fun d => d.outFds = []) cfg env st c m.body m.fds
      (fun _ _ => rfl) (fun _ _ => rfl))
  · exact fun c _ _ => triv _ (dmaUnmap_elim (P := fun d => d.outFds = []) cfg env st c m.body m.fds
      (fun _ _ => rfl) (fun _ _ _ _ => rfl))
  · exact fun _ => triv _ rfl
  · intro h5
    have h5 : m.hdr.cmd = 5 := h5
    unfold regionInfo
    dsimp only
    cases hr : Region.regionInfo env.alloc cfg.tbl m.body with
    | err e => exact triv _ rfl
    | fault f => exact triv _ rfl
    | ok r =>
      rcases regionInfo_fds hr with h | ⟨x, hx, ha, h⟩
      · exact triv _ h
      · refine ⟨fun hh => absurd h5 hh.1, fun _ => by simp [Done.reply, h], fun ht => ?_⟩
        cases hf : x.fd with
        | none => exact absurd hf (ht x hx ha)
        | some fd => exact ⟨[fd], by simp [Done.reply, h, hf]⟩
  · intro h6
    have h6 : m.hdr.cmd = 6 := h6
    unfold regionIoFds
    dsimp only
    cases hr : Region.regionIoFds env.alloc cfg.tbl m.body with
    | err e => exact triv _ rfl
    | fault f => exact triv _ rfl
    | ok r =>
      exact ⟨fun hh => absurd h6 hh.2, fun h5 => by omega, fun _ => regionIoFds_fds hr⟩
  · exact fun _ => triv _ rfl
  · exact fun _ => triv _ rfl
  · exact fun _ => triv _ rfl
  · exact fun _ => triv _ rfl
  · exact fun _ => triv _ rfl
  · exact fun _ => triv _ rfl
  · exact fun _ => triv _ rfl
  · exact fun _ => triv _ rfl
  · exact fun _ => triv _ rfl

/-! ## Sending -/

/-- The message is a reply to the request: same id and command, marked as a reply, the size field counts the bytes sent,
the error flag goes with an error number. -/
def Answers (h : Wire.Hdr) (m : Wire.Sent) : Prop :=
  (Wire.Hdr.ofBytes m.bytes).id = h.id ∧ (Wire.Hdr.ofBytes m.bytes).cmd = h.cmd ∧
    (Wire.Hdr.ofBytes m.bytes).flags % 16 = 1 ∧ (Wire.Hdr.ofBytes m.bytes).size = m.bytes.length % 4294967296 ∧
    (Wire.Hdr.ofBytes m.bytes).flags.testBit 5 = decide ((Wire.Hdr.ofBytes m.bytes).err ≠ 0)

instance (h : Wire.Hdr) (m : Wire.Sent) : Decidable (Answers h m) := by unfold Answers; infer_instance

/-- At most one message goes out. -/
theorem reply_sent (snd : Wire.Send) (h : Wire.Hdr) (b : Wire.Body) (fds : List (Option Fd)) (err : Nat) :
    (Wire.reply snd h b fds err).2 = [] ∨ ∃ w, (Wire.reply snd h b fds err).2 = [w] ∧ w.fds = fds.filterMap id := by
  have hgo : ∀ hd l, (Wire.sendIovec.go snd hd l fds).2 = [] ∨
      ∃ w, (Wire.sendIovec.go snd hd l fds).2 = [w] ∧ w.fds = fds.filterMap id := by
    intro hd l
    unfold Wire.sendIovec.go
    by_cases hf : fds.any Option.isNone = true
    · rw [if_pos hf]; exact .inl rfl
    rw [if_neg hf]
    dsimp only
    cases snd (hd.bytes ++ l).length with
    | error e => exact .inl rfl
    | ok n => exact .inr ⟨_, rfl, rfl⟩
  unfold Wire.reply Wire.sendIovec
  cases b with
  | bytes l => exact hgo _ _
  | null n =>
    cases n with
    | zero => exact hgo _ _
    | succ n => exact .inl rfl

theorem reply_ok (snd : Wire.Send) (hs : Wire.Healthy snd) (h : Wire.Hdr) (hr : h.Fits) (l : List Byte) (fds : List Fd)
    (err : Nat) (he : err < U32) :
    ∃ w, Wire.reply snd h (.bytes l) (fds.map some) err = (.ok (), [w]) ∧ Answers h w ∧ w.fds = fds ∧
      (l.length + 16 < U32 → Wire.IsReply h err l w.bytes) := by
  by_cases hl : l.length + 16 < U32
  · obtain ⟨w, h1, h2⟩ := Wire.C49_reply snd hs h hr err he l hl fds
    refine ⟨_, h1, ⟨h2.id, h2.cmd, h2.type, ?_, by rw [h2.error, h2.errno]⟩, rfl, fun _ => h2⟩
    obtain ⟨hb, hl1, hl2⟩ := h2.bytes
    have hlen := congrArg List.length hl2
    rw [List.length_append] at hlen
    have hlt : w.length < 4294967296 := by simp only [U32] at hl; omega
    exact h2.size.trans (Nat.mod_eq_of_lt hlt).symm
  · refine ⟨⟨(Wire.mkHdr h.id h.cmd true l.length err).bytes ++ l, fds⟩, ?_, ?_, rfl, fun h => absurd h hl⟩
    · unfold Wire.reply Wire.sendIovec
      dsimp only [Wire.Body.len]
      unfold Wire.sendIovec.go
      have h1 : (fds.map some).any Option.isNone = false := by simp
      have h2 : (fds.map some).filterMap id = fds := by simp
      have h3 : (Wire.mkHdr h.id h.cmd true l.length err).bytes.length = 16 := Wire.Hdr.bytes_length _
      have h4 : (Wire.mkHdr h.id h.cmd true l.length err).size ≤ 16 + l.length := by
        simp only [Wire.mkHdr, Wire.HDR]; exact Nat.mod_le _ _
      rw [h1, if_neg (by simp)]
      dsimp only
      rw [hs]
      dsimp only
      rw [if_neg (by rw [List.length_append, h3]; omega), h2, List.take_length]
    · have ho := Wire.Hdr.ofBytes_bytes _ (Wire.mkHdr_fits h.id h.cmd true l.length err hr.id hr.cmd he) l
      refine ⟨?_, ?_, ?_, ?_, ?_⟩
      · rw [ho]; rfl
      · rw [ho]; rfl
      rotate_left
      · rw [ho, List.length_append, Wire.Hdr.bytes_length]; rfl
      · rw [ho]
        by_cases h0 : err = 0
        · simp [Wire.mkHdr, h0, Wire.TYPE_REPLY]; decide
        · simp [Wire.mkHdr, h0, Wire.TYPE_REPLY, Wire.F_ERROR]; decide
      · rw [ho]
        by_cases h0 : err = 0
        · simp [Wire.mkHdr, h0, Wire.TYPE_REPLY]
        · simp [Wire.mkHdr, h0, Wire.TYPE_REPLY, Wire.F_ERROR]

/-! ## C54 -/

/-- How far a request is. -/
inductive Phase where
  | got
  | executed
  | answered
deriving DecidableEq

/-- The conversation: the request being worked on.  A request arrives when none is open; it is executed at most once,
before it is answered; a message is sent only as the single answer to an open request that wants one; the request is
closed.  `strict`: the message identifies the request, and the request is not closed without the answer it wants. -/
def follow (strict : Bool) : Option (Wire.Hdr × Phase) → Ev → Option (Option (Wire.Hdr × Phase))
  | none, .got h _ => some (some (h, .got))
  | some (h, p), .exec h' => if h' = h ∧ p = .got then some (some (h, .executed)) else none
  | some (h, p), .sent m =>
    if p ≠ .answered ∧ h.noReply = false ∧ (strict = true → Answers h m) then some (some (h, .answered)) else none
  | some (h, p), .freed => if strict = true → (p = .answered ↔ h.noReply = false) then some none else none
  | _, .got _ _ | _, .exec _ | _, .sent _ | _, .freed => none
  | s, _ => some s

/-- The request that is open between two calls of the library. -/
def openReq (st : St) : Option (Wire.Hdr × Phase) :=
  match st.pending with
  | .msg m => some (m.hdr, .got)
  | _ => none

theorem follow_inner {strict : Bool} {s : Option (Wire.Hdr × Phase)} {l : List Ev} (h : ∀ e ∈ l, e.Inner) :
    monitor (follow strict) s l = some s := by
  apply monitor_stay
  intro e he
  have := h e he
  cases e <;> first | exact this.elim | (cases s <;> rfl)

/-- Events of a reset: inner ones and the end of the connection. -/
theorem follow_resetQuiesced {strict : Bool} (cfg : Cfg) (env : Env) (st : St) (s : Option (Wire.Hdr × Phase)) :
    monitor (follow strict) s (resetQuiesced cfg env st).evs = some s := by
  unfold resetQuiesced
  cases dropDma cfg st.dma with
  | err e => rfl
  | fault f => rfl
  | ok x =>
    obtain ⟨dma, ev1⟩ := x
    dsimp only
    have h1 := follow_inner (strict := strict) (s := s) (inner_flatMap (inner_ofDma (q := st.quiesced)) ev1)
    have h2 := follow_inner (strict := strict) (s := s) (inner_deviceReset cfg env { st with dma } .lostConn)
    cases Irq.reset cfg.irq (deviceReset cfg env { st with dma } .lostConn).1.irqs with
    | err e => exact monitor_append_of h1 h2
    | fault f => exact monitor_append_of h1 h2
    | ok y =>
      refine monitor_append_of (monitor_append_of (monitor_append_of h1 h2)
        (follow_inner (inner_flatMap (inner_ofIrq (q := st.quiesced)) _))) ?_
      cases s <;> rfl

theorem follow_resetCtx {strict : Bool} (cfg : Cfg) (env : Env) (k : Nat) (st : St) (s : Option (Wire.Hdr × Phase)) :
    monitor (follow strict) s (resetCtx cfg env k st).evs = some s := by
  unfold resetCtx
  have hb := follow_inner (strict := strict) (s := s)
    (inner_bracket (t := .quiesce) (c := .quiesce (env.quiesce k)) (q := st.quiesced))
  by_cases h : cfg.hasQuiesce = true ∧ st.pending = .none
  · rw [if_pos h]
    dsimp only
    cases hk : env.quiesce k with
    | none => rw [hk] at hb; exact monitor_append_of hb (follow_resetQuiesced ..)
    | some e =>
      rw [hk] at hb
      dsimp only
      by_cases he : e = EBUSY
      · rw [if_pos he]; exact hb
      · rw [if_neg he]; exact hb
  · rw [if_neg h]; exact follow_resetQuiesced ..

/-- What must hold for the answer to get out. -/
structure Clear (env : Env) (h : Wire.Hdr) (b : Wire.Body) (fds : List (Option Fd)) : Prop where
  snd : Wire.Healthy env.snd
  fits : h.Fits
  body : ∃ l, b = .bytes l
  fds : ∃ l : List Fd, fds = l.map some

theorem follow_doReply {strict : Bool} (cfg : Cfg) (env : Env) (k : Nat) (st : St) (h : Wire.Hdr) (b : Wire.Body)
    (fds : List (Option Fd)) (err : Nat) {p : Phase} (hp : p ≠ .answered) (hc : strict = true → Clear env h b fds) :
    ∃ a, monitor (follow strict) (some (h, p)) (doReply cfg env k st h b fds err).evs = some (some (h, a)) ∧
      (strict = true → (a = .answered ↔ h.noReply = false)) := by
  unfold doReply
  by_cases hn : h.noReply = true
  · rw [if_pos hn]; exact ⟨p, rfl, fun _ => ⟨fun h => absurd h hp, fun h => by rw [hn] at h; cases h⟩⟩
  rw [if_neg hn]
  have hn' : h.noReply = false := by simpa using hn
  dsimp only
  cases strict with
  | true =>
    obtain ⟨hs, hf, ⟨l, rfl⟩, ⟨fl, rfl⟩⟩ := hc rfl
    obtain ⟨w, h1, h2, _, _⟩ := reply_ok env.snd hs h hf l fl (err % U32) (Nat.mod_lt _ (by decide))
    rw [h1]
    refine ⟨.answered, ?_, fun _ => ⟨fun _ => hn', fun _ => rfl⟩⟩
    simp only [List.map_cons, List.map_nil, monitor, follow]
    rw [if_pos ⟨hp, hn', fun _ => h2⟩]
  | false =>
    have hsent : ∃ a, monitor (follow false) (some (h, p)) ((Wire.reply env.snd h b fds (err % U32)).2.map Ev.sent) =
        some (some (h, a)) := by
      rcases reply_sent env.snd h b fds (err % U32) with hx | ⟨w, hx, _⟩
      · rw [hx]; exact ⟨p, rfl⟩
      · rw [hx]
        refine ⟨.answered, ?_⟩
        simp only [List.map_cons, List.map_nil, monitor, follow]
        rw [if_pos ⟨hp, hn', fun h => by cases h⟩]
    obtain ⟨a, ha⟩ := hsent
    refine ⟨a, ?_, fun h => by cases h⟩
    cases (Wire.reply env.snd h b fds (err % U32)).1 with
    | ok u => exact ha
    | error e =>
      dsimp only
      by_cases he : e = ECONNRESET ∨ e = ENOMSG
      · rw [if_pos he]; exact monitor_append_of ha (follow_resetCtx ..)
      · rw [if_neg he]; exact ha

theorem follow_freed {strict : Bool} {h : Wire.Hdr} {a : Phase} (fds : List (Option Fd))
    (ha : strict = true → (a = .answered ↔ h.noReply = false)) :
    monitor (follow strict) (some (h, a)) (closes fds ++ [.freed]) = some none := by
  refine monitor_append_of (follow_inner (inner_closes fds)) ?_
  simp only [monitor, follow]
  rw [if_pos ha]

theorem follow_refuse {strict : Bool} (cfg : Cfg) (env : Env) (k : Nat) (st : St) (h : Wire.Hdr) (fds : List Fd)
    (err : Nat) (hc : strict = true → Wire.Healthy env.snd ∧ h.Fits) :
    ∃ s, monitor (follow strict) (some (h, .got)) (refuse cfg env k st h fds err).evs = some s ∧
      ((refuse cfg env k st h fds err).res.isFault = false → s = none) := by
  obtain ⟨a, h1, h2⟩ := follow_doReply (strict := strict) cfg env k st h (.bytes []) [] err
    (p := .got) (by simp) (fun hs => ⟨(hc hs).1, (hc hs).2, ⟨[], rfl⟩, ⟨[], rfl⟩⟩)
  unfold refuse
  dsimp only
  by_cases hf : (doReply cfg env k st h (.bytes []) [] err).res.isFault = true
  · rw [if_pos hf]; exact ⟨_, h1, fun h => by rw [hf] at h; cases h⟩
  · rw [if_neg hf]
    refine ⟨none, ?_, fun _ => rfl⟩
    dsimp only
    rw [List.append_assoc]
    exact monitor_append_of h1 (follow_freed _ h2)

theorem follow_handleRequest {strict : Bool} (cfg : Cfg) (env : Env) (k : Nat) (st : St) (m : Msg)
    (hc : strict = true → Wire.Healthy env.snd ∧ m.hdr.Fits ∧ env.alloc = true ∧ TableOk cfg.tbl) :
    ∃ s, monitor (follow strict) (some (m.hdr, .got)) (handleRequest cfg env k st m).evs = some s ∧
      ((handleRequest cfg env k st m).res.isFault = false → s = none) := by
  have ht := (tame_exec cfg env st m).evs
  have hb := exec_bytes cfg env st m
  have hf := (exec_fds cfg env st m).2.2
  unfold handleRequest
  dsimp only
  generalize exec cfg env st m = d at ht hb hf
  have he : monitor (follow strict) (some (m.hdr, .got)) (.exec m.hdr :: d.evs) = some (some (m.hdr, .executed)) := by
    refine monitor_cons_of ?_ (follow_inner ht)
    simp [follow]
  by_cases hd : d.res.isFault = true
  · rw [if_pos hd]; exact ⟨_, he, fun h => by rw [hd] at h; cases h⟩
  rw [if_neg hd]
  obtain ⟨a, h1, h2⟩ := follow_doReply (strict := strict) cfg env k d.st m.hdr d.out d.outFds (replyErr d.res)
    (p := .executed) (by simp) (fun hs => ⟨(hc hs).1, (hc hs).2.1, hb (hc hs).2.2.1, hf (hc hs).2.2.2⟩)
  unfold finish
  dsimp only
  by_cases hf : (doReply cfg env k d.st m.hdr d.out d.outFds (replyErr d.res)).res.isFault = true
  · rw [if_pos hf]; exact ⟨_, monitor_append_of he h1, fun h => by rw [hf] at h; cases h⟩
  · rw [if_neg hf]
    refine ⟨none, ?_, fun _ => rfl⟩
    dsimp only
    rw [List.append_assoc]
    exact monitor_append_of (monitor_append_of he h1) (follow_freed _ h2)

/-- A round of the loop reads what a socket delivers. -/
def Real (i : Wire.In) : Prop := ∃ s, i = (Wire.next s).1

/-- The headers read are 16 bytes of the stream. -/
theorem real_fits {i : Wire.In} (h : Real i) :
    (∀ hd body fds, i = .req hd body fds → hd.Fits) ∧ (∀ hd fds e, i = .bad hd fds e → hd.Fits) := by
  obtain ⟨s, rfl⟩ := h
  unfold Wire.next
  cases hg : Wire.getHeader s with
  | mk r s1 =>
    cases r with
    | error i =>
      dsimp only
      have : ∀ x, Wire.getHeader s = (.error x, s1) → (∀ hd body fds, x ≠ .req hd body fds) ∧ (∀ hd fds e, x ≠ .bad hd fds e) := by
        intro x hx
        unfold Wire.getHeader at hx
        split at hx
        · simp only [Prod.mk.injEq, Except.error.injEq] at hx; rw [← hx.1]; simp
        · simp only [Prod.mk.injEq, Except.error.injEq] at hx; rw [← hx.1]; simp
        · split at hx
          · simp only [Prod.mk.injEq, Except.error.injEq] at hx; rw [← hx.1]; simp
          · split at hx
            · simp only [Prod.mk.injEq, Except.error.injEq] at hx; rw [← hx.1]; simp
            · simp at hx
      obtain ⟨h1, h2⟩ := this i hg
      exact ⟨fun hd body fds h => absurd h (h1 _ _ _), fun hd fds e h => absurd h (h2 _ _ _)⟩
    | ok x =>
      obtain ⟨hd, fds⟩ := x
      have hf : hd.Fits := by
        unfold Wire.getHeader at hg
        split at hg
        · simp at hg
        · simp at hg
        · split at hg
          · simp at hg
          · split at hg
            · simp at hg
            · simp only [Prod.mk.injEq, Except.ok.injEq] at hg
              rw [← hg.1.1]
              exact Wire.Hdr.fits_ofBytes _
      dsimp only
      split
      · exact ⟨fun _ _ _ h => by simp at h, fun _ _ _ h => by simp only [Wire.In.bad.injEq] at h; rw [← h.1]; exact hf⟩
      · split
        · split
          · exact ⟨fun _ _ _ h => by simp at h,
              fun _ _ _ h => by simp only [Wire.In.bad.injEq] at h; rw [← h.1]; exact hf⟩
          · exact ⟨fun _ _ _ h => by simp only [Wire.In.req.injEq] at h; rw [← h.1]; exact hf,
              fun _ _ _ h => by simp at h⟩
        · exact ⟨fun _ _ _ h => by simp only [Wire.In.req.injEq] at h; rw [← h.1]; exact hf,
            fun _ _ _ h => by simp at h⟩

/-! ## The message kept for later -/

/-- Nothing but a deferred request is kept as a message. -/
def Keeps (p q : Pending) : Prop := q = p ∨ q = .ctxReset

theorem resetCtx_keeps (cfg : Cfg) (env : Env) (k : Nat) (st : St) : Keeps st.pending (resetCtx cfg env k st).st.pending := by
  unfold resetCtx
  by_cases h : cfg.hasQuiesce = true ∧ st.pending = .none
  · rw [if_pos h]
    dsimp only
    cases env.quiesce k with
    | none => exact .inl (resetQuiesced_frame cfg env st).1
    | some e =>
      dsimp only
      by_cases he : e = EBUSY
      · rw [if_pos he]; exact .inr rfl
      · rw [if_neg he]; exact .inl rfl
  · rw [if_neg h]; exact .inl (resetQuiesced_frame cfg env st).1

theorem doReply_keeps (cfg : Cfg) (env : Env) (k : Nat) (st : St) (h : Wire.Hdr) (b : Wire.Body)
    (fds : List (Option Fd)) (err : Nat) : Keeps st.pending (doReply cfg env k st h b fds err).st.pending := by
  unfold doReply
  by_cases hn : h.noReply = true
  · rw [if_pos hn]; exact .inl rfl
  rw [if_neg hn]
  dsimp only
  cases (Wire.reply env.snd h b fds (err % U32)).1 with
  | ok u => exact .inl rfl
  | error e =>
    dsimp only
    by_cases he : e = ECONNRESET ∨ e = ENOMSG
    · rw [if_pos he]; exact resetCtx_keeps ..
    · rw [if_neg he]; exact .inl rfl

theorem refuse_keeps (cfg : Cfg) (env : Env) (k : Nat) (st : St) (h : Wire.Hdr) (fds : List Fd) (err : Nat) :
    Keeps st.pending (refuse cfg env k st h fds err).st.pending := by
  rw [refuse_st]; exact doReply_keeps ..

theorem handleRequest_keeps (cfg : Cfg) (env : Env) (k : Nat) (st : St) (m : Msg) :
    Keeps st.pending (handleRequest cfg env k st m).st.pending := by
  have hp := (tame_exec cfg env st m).same.pending
  unfold handleRequest
  dsimp only
  by_cases hd : (exec cfg env st m).res.isFault = true
  · rw [if_pos hd]; exact .inl hp
  · rw [if_neg hd, finish_st, ← hp]; exact doReply_keeps ..

/-- What the environment and the client have to do for every request to be answered. -/
def Op.Fine : Op → Prop
  | .run env i => Wire.Healthy env.snd ∧ env.alloc = true ∧ Real i
  | .quiesced env e => Wire.Healthy env.snd ∧ env.alloc = true ∧ e = 0
  | _ => True

theorem quiet_fault (r : Res Unit) : (quiet r).isFault = r.isFault := by
  unfold quiet
  cases r with
  | err e => dsimp only; by_cases h : e = ENOMSG ∨ e = EAGAIN
             · rw [if_pos h]; rfl
             · rw [if_neg h]
  | ok u => rfl
  | fault f => rfl

theorem openReq_keeps {st st' : St} (h0 : openReq st = none) (h : Keeps st.pending st'.pending) : openReq st' = none := by
  unfold openReq at *
  rcases h with h | h
  · rw [h]; exact h0
  · rw [h]

theorem follow_dispatch {strict : Bool} (cfg : Cfg) (env : Env) (st : St) (m : Msg) (hp : st.pending = .none)
    (hc : strict = true → Wire.Healthy env.snd ∧ m.hdr.Fits ∧ env.alloc = true ∧ TableOk cfg.tbl) :
    ∃ s, monitor (follow strict) (some (m.hdr, .got)) (dispatch cfg env st m).evs = some s ∧
      ((dispatch cfg env st m).res.isFault = false → s = openReq (dispatch cfg env st m).st) := by
  have h0 : openReq st = none := by unfold openReq; rw [hp]
  unfold dispatch
  by_cases he : shouldExec st.mig m.hdr.cmd = false
  · rw [if_pos he]
    dsimp only
    obtain ⟨s, h1, h2⟩ := follow_refuse cfg env 0 st m.hdr m.fds EINVAL (fun h => ⟨(hc h).1, (hc h).2.1⟩)
    refine ⟨s, h1, fun hf => ?_⟩
    rw [quiet_fault] at hf
    rw [h2 hf, openReq_keeps h0 (refuse_keeps ..)]
  rw [if_neg he]
  by_cases hq : needsQuiesce cfg st m = true
  · rw [if_pos hq]
    dsimp only
    have hb := follow_inner (strict := strict) (s := some (m.hdr, .got))
      (inner_bracket (t := .quiesce) (c := .quiesce (env.quiesce 0)) (q := st.quiesced))
    cases hk : env.quiesce 0 with
    | some e =>
      rw [hk] at hb
      dsimp only
      by_cases hb' : e = EBUSY
      · rw [if_pos hb']; exact ⟨_, hb, fun _ => rfl⟩
      · rw [if_neg hb']
        obtain ⟨s, h1, h2⟩ := follow_refuse cfg env 1 st m.hdr m.fds e (fun h => ⟨(hc h).1, (hc h).2.1⟩)
        refine ⟨s, monitor_append_of hb h1, fun hf => ?_⟩
        rw [quiet_fault] at hf
        rw [h2 hf, openReq_keeps h0 (refuse_keeps ..)]
    | none =>
      rw [hk] at hb
      dsimp only
      obtain ⟨s, h1, h2⟩ := follow_handleRequest cfg env 1 { st with quiesced := true } m hc
      refine ⟨s, monitor_append_of hb h1, fun hf => ?_⟩
      rw [h2 hf]
      have hk := handleRequest_keeps cfg env 1 { st with quiesced := true } m
      exact (openReq_keeps (st := st) h0 hk).symm
  · rw [if_neg hq]
    dsimp only
    obtain ⟨s, h1, h2⟩ := follow_handleRequest cfg env 0 st m hc
    refine ⟨s, h1, fun hf => ?_⟩
    rw [h2 hf]
    exact (openReq_keeps (st := st) h0 (handleRequest_keeps cfg env 0 st m)).symm

theorem openReq_congr {st st' : St} (h : st'.pending = st.pending) : openReq st' = openReq st := by
  unfold openReq; rw [h]

theorem follow_call {strict : Bool} (cfg : Cfg) (st : St) (op : Op)
    (hc : strict = true → op.Fine ∧ TableOk cfg.tbl ∧ ∀ m, st.pending = .msg m → m.hdr.Fits) :
    ∃ s, monitor (follow strict) (openReq st) (call cfg st op).evs = some s ∧
      ((call cfg st op).res.isFault = false → s = openReq (call cfg st op).st) := by
  cases op with
  | run env i =>
    unfold call poll
    dsimp only
    by_cases hp : st.pending ≠ .none
    · rw [if_pos hp]; exact ⟨_, rfl, fun _ => rfl⟩
    rw [if_neg hp]
    by_cases hn : st.conn = false
    · rw [if_pos hn]; exact ⟨_, rfl, fun _ => rfl⟩
    rw [if_neg hn]
    have hp := Decidable.not_not.mp hp
    have h0 : openReq st = none := by unfold openReq; rw [hp]
    rw [h0]
    cases i with
    | again => exact ⟨_, rfl, fun _ => h0.symm⟩
    | failed e leak => exact ⟨_, rfl, fun _ => h0.symm⟩
    | lost e leak =>
      dsimp only
      exact ⟨none, monitor_cons_of rfl (follow_resetCtx ..),
        fun _ => (openReq_keeps (st := st) h0 (resetCtx_keeps ..)).symm⟩
    | bad h fds e =>
      dsimp only
      obtain ⟨s, h1, h2⟩ := follow_refuse (strict := strict) cfg env 0 st h fds e
        (fun hs => ⟨(hc hs).1.1, (real_fits (hc hs).1.2.2).2 _ _ _ rfl⟩)
      refine ⟨s, monitor_cons_of rfl h1, fun hf => ?_⟩
      rw [quiet_fault] at hf
      rw [h2 hf]
      exact (openReq_keeps (st := st) h0 (refuse_keeps ..)).symm
    | req h body fds =>
      dsimp only
      obtain ⟨s, h1, h2⟩ := follow_dispatch (strict := strict) cfg env st ⟨h, body, fds⟩ hp
        (fun hs => ⟨(hc hs).1.1, (real_fits (hc hs).1.2.2).1 _ _ _ rfl, (hc hs).1.2.1, (hc hs).2.1⟩)
      exact ⟨s, monitor_cons_of rfl h1, h2⟩
  | quiesced env e =>
    unfold call deviceQuiesced
    dsimp only
    by_cases hq : cfg.hasQuiesce = false ∨ st.pending = .none
    · rw [if_pos hq]; exact ⟨_, rfl, fun _ => rfl⟩
    rw [if_neg hq]
    have hd : ∀ s : Option (Wire.Hdr × Phase), follow strict s (.devQuiesced e) = some s := fun s => by cases s <;> rfl
    by_cases he : e = 0
    · rw [if_pos he]
      cases hp : st.pending with
      | none => rw [hp] at hq; exact absurd (.inr rfl) hq
      | ctxReset =>
        dsimp only
        refine ⟨none, monitor_cons_of (by unfold openReq; rw [hp]; exact hd _) (follow_resetQuiesced ..), fun _ => rfl⟩
      | msg m =>
        dsimp only
        obtain ⟨s, h1, h2⟩ := follow_handleRequest (strict := strict) cfg env 0
          { st with quiesced := true, pending := .msg m } m
          (fun hs => ⟨(hc hs).1.1, (hc hs).2.2 m hp, (hc hs).1.2.1, (hc hs).2.1⟩)
        exact ⟨s, monitor_cons_of (s1 := some (m.hdr, .got)) (by unfold openReq; rw [hp]; exact hd _) h1, h2⟩
    · rw [if_neg he]
      cases hp : st.pending with
      | none => rw [hp] at hq; exact absurd (.inr rfl) hq
      | ctxReset => exact ⟨none, monitor_cons_of (by unfold openReq; rw [hp]; exact hd _) rfl, fun _ => rfl⟩
      | msg m =>
        refine ⟨none, monitor_cons_of (by unfold openReq; rw [hp]; exact hd _) (follow_freed _ (fun hs => ?_)),
          fun _ => rfl⟩
        exact absurd (hc hs).1.2.2 he
  | transfer env lost =>
    unfold call transfer
    dsimp only
    by_cases hp : st.pending ≠ .none
    · rw [if_pos hp]; exact ⟨_, rfl, fun h => by cases h⟩
    rw [if_neg hp]
    have h0 : openReq st = none := by unfold openReq; rw [Decidable.not_not.mp hp]
    by_cases hl : lost = true ∧ st.conn = true
    · rw [if_pos hl, h0]
      exact ⟨none, follow_resetCtx .., fun _ => (openReq_keeps (st := st) h0 (resetCtx_keeps ..)).symm⟩
    · rw [if_neg hl]; exact ⟨_, rfl, fun _ => rfl⟩
  | attach n =>
    unfold call attach
    dsimp only
    by_cases hp : st.conn = true
    · rw [if_pos hp]; exact ⟨_, rfl, fun _ => rfl⟩
    · rw [if_neg hp]; cases n <;> exact ⟨_, rfl, fun _ => rfl⟩
  | config f => exact ⟨_, rfl, fun _ => rfl⟩
  | mark sgl =>
    unfold call
    cases st.dma with
    | none => exact ⟨_, rfl, fun _ => rfl⟩
    | some c => dsimp only; cases Dma.sglMark c sgl <;> exact ⟨_, rfl, fun _ => rfl⟩
  | trigger wr sub =>
    unfold call
    exact ⟨_, follow_inner (inner_flatMap (inner_ofIrq (q := st.quiesced)) _), fun _ => rfl⟩

/-- A kept request came off the wire. -/
theorem call_fits (cfg : Cfg) (st : St) (op : Op) (hop : op.Fine) (hf : ∀ m, st.pending = .msg m → m.hdr.Fits) :
    ∀ m, (call cfg st op).st.pending = .msg m → m.hdr.Fits := by
  have keep : ∀ {p q : Pending}, Keeps p q → (∀ m, p = .msg m → m.hdr.Fits) → ∀ m, q = .msg m → m.hdr.Fits := by
    intro p q hk hp m hm
    rcases hk with h | h
    · exact hp m (h ▸ hm)
    · rw [h] at hm; cases hm
  cases op with
  | run env i =>
    unfold call poll
    dsimp only
    by_cases hp : st.pending ≠ .none
    · rw [if_pos hp]; exact hf
    rw [if_neg hp]
    by_cases hn : st.conn = false
    · rw [if_pos hn]; exact hf
    rw [if_neg hn]
    cases i with
    | again => exact hf
    | failed e leak => exact hf
    | lost e leak => exact keep (resetCtx_keeps ..) hf
    | bad h fds e => exact keep (refuse_keeps ..) hf
    | req h body fds =>
      have hh : h.Fits := (real_fits hop.2.2).1 _ _ _ rfl
      dsimp only
      unfold dispatch
      by_cases he : shouldExec st.mig h.cmd = false
      · rw [if_pos he]; exact keep (refuse_keeps ..) hf
      rw [if_neg he]
      by_cases hq : needsQuiesce cfg st ⟨h, body, fds⟩ = true
      · rw [if_pos hq]
        dsimp only
        cases env.quiesce 0 with
        | some e =>
          dsimp only
          by_cases hb : e = EBUSY
          · rw [if_pos hb]
            intro m hm
            dsimp only at hm
            cases hm
            exact hh
          · rw [if_neg hb]; exact keep (refuse_keeps ..) hf
        | none => exact keep (handleRequest_keeps cfg env 1 { st with quiesced := true } ⟨h, body, fds⟩) hf
      · rw [if_neg hq]; exact keep (handleRequest_keeps cfg env 0 st ⟨h, body, fds⟩) hf
  | quiesced env e =>
    unfold call deviceQuiesced
    dsimp only
    by_cases hq : cfg.hasQuiesce = false ∨ st.pending = .none
    · rw [if_pos hq]; exact hf
    · rw [if_neg hq]; intro m hm; cases hm
  | transfer env lost =>
    unfold call transfer
    dsimp only
    by_cases hp : st.pending ≠ .none
    · rw [if_pos hp]; exact hf
    rw [if_neg hp]
    by_cases hl : lost = true ∧ st.conn = true
    · rw [if_pos hl]; exact keep (resetCtx_keeps ..) hf
    · rw [if_neg hl]; exact hf
  | attach n =>
    unfold call attach
    dsimp only
    by_cases hp : st.conn = true
    · rw [if_pos hp]; exact hf
    · rw [if_neg hp]; cases n <;> exact hf
  | config f => exact hf
  | mark sgl =>
    unfold call
    cases hd : st.dma with
    | none => exact hf
    | some c => dsimp only; cases Dma.sglMark c sgl <;> exact hf
  | trigger wr sub => exact hf

/-- The history runs to its end. -/
def Completes (cfg : Cfg) : St → List Op → Prop
  | _, [] => True
  | st, op :: ops => (call cfg st op).res.isFault = false ∧ Completes cfg (call cfg st op).st ops

theorem follow_run {strict : Bool} (cfg : Cfg) (st : St) (ops : List Op)
    (hc : strict = true → (∀ op ∈ ops, op.Fine) ∧ TableOk cfg.tbl ∧ ∀ m, st.pending = .msg m → m.hdr.Fits) :
    ∃ s, monitor (follow strict) (openReq st) (run cfg st ops).2 = some s ∧
      (Completes cfg st ops → s = openReq (run cfg st ops).1) := by
  induction ops generalizing st with
  | nil => exact ⟨_, rfl, fun _ => rfl⟩
  | cons op ops ih =>
    obtain ⟨s, h1, h2⟩ := follow_call (strict := strict) cfg st op
      (fun hs => ⟨(hc hs).1 op (List.mem_cons_self ..), (hc hs).2⟩)
    unfold run Completes
    dsimp only
    by_cases hf : (call cfg st op).res.isFault = true
    · rw [if_pos hf]; exact ⟨s, h1, fun h => by rw [hf] at h; cases h.1⟩
    rw [if_neg hf]
    have hf : (call cfg st op).res.isFault = false := by simpa using hf
    obtain ⟨s', h3, h4⟩ := ih (call cfg st op).st (fun hs => ⟨fun o ho => (hc hs).1 o (List.mem_cons_of_mem _ ho),
      (hc hs).2.1, call_fits cfg st op ((hc hs).1 op (List.mem_cons_self ..)) (hc hs).2.2⟩)
    refine ⟨s', monitor_append_of h1 (monitor_cons_of (s1 := s) ?_ ?_), fun h => h4 h.2⟩
    · cases s <;> rfl
    · rw [h2 hf]; exact h3

/-! ### What the automaton says -/

/-- The requests that want a reply, in order of arrival. -/
def wanted (l : List Ev) : List Wire.Hdr :=
  l.filterMap fun e => match e with
    | .got h _ => if h.noReply = false then some h else none
    | _ => none

/-- The messages sent, in order. -/
def sents (l : List Ev) : List Wire.Sent :=
  l.filterMap fun e => match e with
    | .sent m => some m
    | _ => none

/-- The request that is still unanswered. -/
def owing : Option (Wire.Hdr × Phase) → List Wire.Hdr
  | some (h, p) => if p ≠ .answered ∧ h.noReply = false then [h] else []
  | none => []

theorem follow_strict_sound (l : List Ev) : ∀ (s s' : Option (Wire.Hdr × Phase)) (ws : List Wire.Hdr) (ms : List Wire.Sent),
    monitor (follow true) s l = some s' → List.Forall₂ Answers ws ms →
    ∃ ws', ws ++ owing s ++ wanted l = ws' ++ owing s' ∧ List.Forall₂ Answers ws' (ms ++ sents l) := by
  induction l with
  | nil =>
    intro s s' ws ms h hf
    simp only [monitor, Option.some.injEq] at h
    subst h
    exact ⟨ws, by simp [wanted], by simpa [sents] using hf⟩
  | cons e es ih =>
    intro s s' ws ms h hf
    simp only [monitor] at h
    split at h
    · cases h
    rename_i s1 hs1
    have hstep : ∃ ws1 ms1, List.Forall₂ Answers ws1 ms1 ∧ ws ++ owing s ++ wanted [e] = ws1 ++ owing s1 ∧
        ms ++ sents [e] = ms1 := by
      have hquiet : s1 = s → wanted [e] = [] → sents [e] = [] → ∃ ws1 ms1, List.Forall₂ Answers ws1 ms1 ∧
          ws ++ owing s ++ wanted [e] = ws1 ++ owing s1 ∧ ms ++ sents [e] = ms1 := by
        intro h1 h2 h3
        exact ⟨ws, ms, hf, by rw [h1, h2, List.append_nil], by rw [h3, List.append_nil]⟩
      cases s with
      | none =>
        cases e with
        | got hd fds =>
          simp only [follow, Option.some.injEq] at hs1
          subst hs1
          refine ⟨ws, ms, hf, ?_, by simp [sents]⟩
          by_cases hn : hd.noReply = false <;> simp [owing, wanted, hn]
        | exec | freed | sent => simp [follow] at hs1
        | _ => simp only [follow, Option.some.injEq] at hs1; exact hquiet hs1.symm rfl rfl
      | some x =>
        obtain ⟨hd, p⟩ := x
        cases e with
        | got => simp [follow] at hs1
        | exec h' =>
          simp only [follow] at hs1
          split at hs1
          · rename_i hc
            simp only [Option.some.injEq] at hs1
            subst hs1
            refine ⟨ws, ms, hf, ?_, by simp [sents]⟩
            simp [owing, wanted, hc.2]
          · cases hs1
        | freed =>
          simp only [follow] at hs1
          split at hs1
          · rename_i hc
            simp only [Option.some.injEq] at hs1
            subst hs1
            refine ⟨ws, ms, hf, ?_, by simp [sents]⟩
            have hc := hc trivial
            have : ¬ (p ≠ .answered ∧ hd.noReply = false) := fun h => h.1 (hc.mpr h.2)
            simp [owing, wanted, this]
          · cases hs1
        | sent m =>
          simp only [follow] at hs1
          split at hs1
          · rename_i hc
            simp only [Option.some.injEq] at hs1
            subst hs1
            refine ⟨ws ++ [hd], ms ++ [m], ?_, ?_, by simp [sents]⟩
            · exact List.rel_append hf (.cons (hc.2.2 trivial) .nil)
            · simp [owing, wanted, hc.1, hc.2.1]
          · cases hs1
        | _ => simp only [follow, Option.some.injEq] at hs1; exact hquiet hs1.symm rfl rfl
    obtain ⟨ws1, ms1, hf1, hw, hm⟩ := hstep
    obtain ⟨ws', h1, h2⟩ := ih s1 s' ws1 ms1 h hf1
    refine ⟨ws', ?_, ?_⟩
    · have : wanted (e :: es) = wanted [e] ++ wanted es := by
        rw [show e :: es = [e] ++ es from rfl]; simp only [wanted, List.filterMap_append]
      rw [← h1, ← hw, this, ← List.append_assoc]
    · rw [← hm] at h2
      have : sents (e :: es) = sents [e] ++ sents es := by
        rw [show e :: es = [e] ++ es from rfl]; simp only [sents, List.filterMap_append]
      rw [this, ← List.append_assoc]; exact h2

end Verif.Server
