import Verif.Server.Answer

/-! # What is executed, and what replies contain: C24, C47, C49, C51 -/

namespace Verif.Server
open Verif
open Verif.Dma (Fd)

/-! ## Refusals -/

/-- What a client sees of a refusal: the error reply unless it wants none; the descriptors it sent are closed. -/
def Refusal (h : Wire.Hdr) (fds : List Fd) (err : Nat) (evs : List Ev) : Prop :=
  if h.noReply = true then evs = .got h fds :: fds.map Ev.close ++ [.freed]
  else ∃ w, evs = .got h fds :: .sent w :: fds.map Ev.close ++ [.freed] ∧ w.fds = [] ∧ Wire.IsReply h err [] w.bytes

theorem closes_some (fds : List Fd) : closes (fds.map some) = fds.map Ev.close := by simp [closes]

theorem refuse_ok (cfg : Cfg) (env : Env) (k : Nat) (st : St) (h : Wire.Hdr) (hf : h.Fits) (fds : List Fd) (err : Nat)
    (he : err < U32) (hs : Wire.Healthy env.snd) :
    (refuse cfg env k st h fds err).st = st ∧ (refuse cfg env k st h fds err).res = .ok () ∧
      Refusal h fds err (.got h fds :: (refuse cfg env k st h fds err).evs) := by
  unfold refuse doReply Refusal
  dsimp only
  by_cases hn : h.noReply = true
  · rw [if_pos hn, if_pos hn]
    refine ⟨rfl, rfl, ?_⟩
    simp [Res.isFault, closes_some]
  rw [if_neg hn, if_neg hn]
  obtain ⟨w, h1, _, h3, h4⟩ := reply_ok env.snd hs h hf [] [] err he
  rw [Nat.mod_eq_of_lt he, show ([] : List (Option Fd)) = ([] : List Fd).map some from rfl, h1]
  refine ⟨rfl, rfl, w, ?_, h3, h4 (by decide)⟩
  simp [Res.isFault, closes_some]

/-! ## C24 -/

/-- **C24**: in STOP (1) and STOP_COPY (3), a command other than region read (9), region write (10), device feature (16)
and migration data read (17) is answered with EINVAL; nothing else happens. -/
theorem C24_refused (cfg : Cfg) (env : Env) (st : St) (hp : st.pending = .none) (hc : st.conn = true)
    (hm : st.mig = some 1 ∨ st.mig = some 3) (h : Wire.Hdr) (body : List Byte) (fds : List Fd) (hf : h.Fits)
    (hcmd : h.cmd ≠ 9 ∧ h.cmd ≠ 10 ∧ h.cmd ≠ 16 ∧ h.cmd ≠ 17) (hs : Wire.Healthy env.snd) :
    (poll cfg env st (.req h body fds)).st = st ∧ (poll cfg env st (.req h body fds)).res = .ok () ∧
      Refusal h fds EINVAL (poll cfg env st (.req h body fds)).evs := by
  have hsh : shouldExec st.mig h.cmd = false := by
    have ha : allowedStopped h.cmd = false := by
      simp [allowedStopped, Wire.CMD_REGION_READ, Wire.CMD_REGION_WRITE, Wire.CMD_FEATURE, Wire.CMD_MIG_READ, hcmd]
    unfold shouldExec
    rcases hm with hm | hm <;> rw [hm, ha] <;> rfl
  obtain ⟨h1, h2, h3⟩ := refuse_ok cfg env 0 st h hf fds EINVAL (by decide) hs
  unfold poll
  rw [if_neg (by simp [hp]), if_neg (by simp [hc])]
  dsimp only
  unfold dispatch
  rw [if_pos hsh]
  dsimp only
  exact ⟨h1, by rw [h2]; rfl, h3⟩

/-- The header of a request never executed is not looked at, even if the reply fails. -/
theorem C24_never (cfg : Cfg) (env : Env) (st : St) (hm : st.mig = some 1 ∨ st.mig = some 3) (h : Wire.Hdr)
    (body : List Byte) (fds : List Fd) (hcmd : h.cmd ≠ 9 ∧ h.cmd ≠ 10 ∧ h.cmd ≠ 16 ∧ h.cmd ≠ 17) :
    ∀ h', .exec h' ∉ (poll cfg env st (.req h body fds)).evs := by
  have hsh : shouldExec st.mig h.cmd = false := by
    have ha : allowedStopped h.cmd = false := by
      simp [allowedStopped, Wire.CMD_REGION_READ, Wire.CMD_REGION_WRITE, Wire.CMD_FEATURE, Wire.CMD_MIG_READ, hcmd]
    unfold shouldExec
    rcases hm with hm | hm <;> rw [hm, ha] <;> rfl
  have H : Closed cfg (fun e => ∀ h', e ≠ .exec h') (fun i => ∀ h b f, i ≠ .req h b f) :=
    { inner := fun e he h' => by rintro rfl; exact he
      freed := by simp, detach := by simp, ret := by simp, lost := by simp, devQuiesced := by simp
      gotReq := by simp, gotBad := by simp, exec := fun h b f hg => absurd rfl (hg h b f)
      answer := by simp, refusal := by simp }
  intro h' hmem
  unfold poll at hmem
  by_cases hp : st.pending ≠ .none
  · rw [if_pos hp] at hmem; cases hmem
  rw [if_neg hp] at hmem
  by_cases hc : st.conn = false
  · rw [if_pos hc] at hmem; cases hmem
  rw [if_neg hc] at hmem
  dsimp only at hmem
  unfold dispatch at hmem
  rw [if_pos hsh] at hmem
  rcases List.mem_cons.mp hmem with h1 | h1
  · cases h1
  · exact H.refuse env 0 st h fds EINVAL _ h1 h' rfl

theorem exec_mem (cfg : Cfg) (env : Env) (k : Nat) (st : St) (m : Msg) : .exec m.hdr ∈ (handleRequest cfg env k st m).evs := by
  unfold handleRequest
  dsimp only
  by_cases hd : (exec cfg env st m).res.isFault = true
  · rw [if_pos hd]; exact List.mem_cons_self ..
  rw [if_neg hd]
  unfold finish
  dsimp only
  by_cases hf : (doReply cfg env k (exec cfg env st m).st m.hdr (exec cfg env st m).out (exec cfg env st m).outFds
      (replyErr (exec cfg env st m).res)).res.isFault = true
  · rw [if_pos hf]; exact List.mem_cons_self ..
  · rw [if_neg hf]; simp

/-- **C24**, the other direction: an allowed command, and any command in any other state or without migration support,
is executed as soon as the device is quiesced (or need not be); deferred requests are executed on completion. -/
theorem C24_executed (cfg : Cfg) (env : Env) (st : St) (hp : st.pending = .none) (hc : st.conn = true)
    (h : Wire.Hdr) (body : List Byte) (fds : List Fd)
    (hm : (st.mig ≠ some 1 ∧ st.mig ≠ some 3) ∨ h.cmd = 9 ∨ h.cmd = 10 ∨ h.cmd = 16 ∨ h.cmd = 17) :
    (env.quiesce 0 = none → .exec h ∈ (poll cfg env st (.req h body fds)).evs) ∧
    (env.quiesce 0 = some EBUSY → .exec h ∈ (poll cfg env st (.req h body fds)).evs ∨
      (poll cfg env st (.req h body fds)).st = { st with pending := .msg ⟨h, body, fds⟩ }) ∧
    (cfg.hasQuiesce = false → .exec h ∈ (poll cfg env st (.req h body fds)).evs) := by
  have hsh : shouldExec st.mig h.cmd = true := by
    unfold shouldExec
    rcases hm with hm | hm
    · have h1 : stopCopy st.mig = false := by
        unfold stopCopy; exact beq_eq_false_iff_ne.mpr hm.2
      have h2 : stopped st.mig = false := by unfold stopped; exact beq_eq_false_iff_ne.mpr hm.1
      rw [h1, h2]; rfl
    · have ha : allowedStopped h.cmd = true := by
        rcases hm with hm | hm | hm | hm <;> rw [hm] <;> rfl
      rw [ha]; split_ifs <;> rfl
  have hpoll : poll cfg env st (.req h body fds) =
      { dispatch cfg env st ⟨h, body, fds⟩ with evs := .got h fds :: (dispatch cfg env st ⟨h, body, fds⟩).evs } := by
    unfold poll
    rw [if_neg (by simp [hp]), if_neg (by simp [hc])]
  rw [hpoll]
  dsimp only
  unfold dispatch
  rw [if_neg (by simp [hsh])]
  by_cases hq : needsQuiesce cfg st ⟨h, body, fds⟩ = true
  · rw [if_pos hq]
    dsimp only
    refine ⟨fun hz => ?_, fun hz => .inr ?_, fun hz => ?_⟩
    · rw [hz]
      exact List.mem_cons_of_mem _ (List.mem_append_right _ (exec_mem cfg env 1 { st with quiesced := true } ⟨h, body, fds⟩))
    · rw [hz]; dsimp only; rw [if_pos rfl]
    · unfold needsQuiesce at hq; rw [if_pos hz] at hq; cases hq
  · rw [if_neg hq]
    have := List.mem_cons_of_mem (Ev.got h fds) (exec_mem cfg env 0 st ⟨h, body, fds⟩)
    exact ⟨fun _ => this, fun _ => .inl this, fun _ => this⟩

section
open Demo

/-- The device is stopped; the client asks for a mapping with a descriptor. -/
example : Refusal (hdr 7 2 0 32) [5] 22 (poll cfg env { st with mig := some 1 } (req 7 2 0 (mapBody 0x100000) [5])).evs :=
  (C24_refused cfg env { st with mig := some 1 } rfl rfl (.inl rfl) _ _ _
    ⟨by decide, by decide, by decide, by decide, by decide⟩ (by decide) (fun _ => rfl)).2.2

/-- It may still write to BAR 0; a running one may be given mappings. -/
example : .exec (hdr 8 10 0 20) ∈ (poll cfg env { st with mig := some 3 } (req 8 10 0 writeBody [])).evs :=
  (C24_executed cfg env { st with mig := some 3 } rfl rfl _ _ _ (.inr (.inr (.inl rfl)))).1 rfl

example : .exec (hdr 7 2 0 32) ∈ (poll cfg env st (req 7 2 0 (mapBody 0x100000) [5])).evs :=
  (C24_executed cfg env st rfl rfl _ _ _ (.inl (by decide))).1 rfl

end

/-! ## C47 -/

/-- **C47**: along every history, every request that is executed had a well-formed header and came with exactly the
payload the header announces. -/
theorem C47_executed (cfg : Cfg) (st : St) (hp : st.pending = .none) (ops : List Op)
    (ho : ∀ op ∈ ops, op.Good Real) (h : Wire.Hdr) (hm : .exec h ∈ (run cfg st ops).2) :
    h.flags % 16 = 0 ∧ 16 ≤ h.size ∧ (h.size = 16 → h.cmd = 13) ∧ h.size ≤ 1048576 + 32 ∧
      ∃ env body fds, Op.run env (.req h body fds) ∈ ops ∧ body.length = h.size - 16 := by
  have H : Closed cfg (fun e => ∀ h, e = .exec h → ∃ env body fds, Op.run env (.req h body fds) ∈ ops)
      (fun i => ∃ env, Op.run env i ∈ ops) :=
    { inner := fun e he h' => by rintro rfl; exact he.elim
      freed := by simp, detach := by simp, ret := by simp, lost := by simp, devQuiesced := by simp
      gotReq := by simp, gotBad := by simp
      exec := fun h b f hg h' heq => by cases heq; obtain ⟨env, he⟩ := hg; exact ⟨env, b, f, he⟩
      answer := by simp, refusal := by simp }
  obtain ⟨env, body, fds, hin⟩ := H.run st (fun m h => by rw [hp] at h; cases h) ops
    (fun op hop => by cases op <;> first | exact ⟨_, hop⟩ | trivial) _ hm h rfl
  obtain ⟨s, hs⟩ := ho _ hin
  obtain ⟨hb, _, _, _, h1, h2, h3, h4, h5⟩ := Wire.C47_read (s := s) (s' := (Wire.next s).2) (h := h) (body := body)
    (fds := fds) (by rw [hs])
  exact ⟨h1, h2, h4, h3, env, body, fds, hin, h5⟩

/-- **C47**: a malformed header is answered with EINVAL; nothing is executed, no callback runs, nothing changes. -/
theorem C47_refused (cfg : Cfg) (env : Env) (st : St) (hp : st.pending = .none) (hc : st.conn = true)
    (hs : Wire.Healthy env.snd) (hb : List Byte) (hl : hb.length = 16) (hm : Wire.Malformed (Wire.Hdr.ofBytes hb))
    (body : List Wire.Cell) (closed : Bool) :
    let o := poll cfg env st (Wire.next { cells := hb.map (fun b => (b, [])) ++ body, closed, lim := [] }).1
    o.st = st ∧ o.res = .ok () ∧ Refusal (Wire.Hdr.ofBytes hb) [] EINVAL o.evs := by
  rw [Wire.C47_refuses hb body closed hl hm]
  obtain ⟨h1, h2, h3⟩ := refuse_ok cfg env 0 st _ (Wire.Hdr.fits_ofBytes hb) [] EINVAL (by decide) hs
  dsimp only
  unfold poll
  rw [if_neg (by simp [hp]), if_neg (by simp [hc])]
  dsimp only
  exact ⟨h1, by rw [h2]; rfl, h3⟩

section
open Demo

set_option maxRecDepth 4000 in
example : .exec (hdr 2 3 0 24) ∈ (run cfg st talk).2 ∧ ∀ op ∈ talk, op.Good Real := by
  refine ⟨by decide, fun op hop => ?_⟩
  have := talk_fine op hop
  cases op <;> first | exact this.2.2 | trivial

/-- A message that claims to be a reply. -/
example : Wire.Malformed (Wire.Hdr.ofBytes (Demo.hdr 1 4 1 16).bytes) := by unfold Wire.Malformed; decide

end

/-! ## C49 -/

/-- Which failed commands may leave a body in the reply. -/
theorem exec_err_body (cfg : Cfg) (env : Env) (st : St) (m : Msg) (ha : env.alloc = true) {e : Nat}
    (he : (exec cfg env st m).res = .err e) (hc : m.hdr.cmd ≠ 9 ∧ m.hdr.cmd ≠ 10 ∧ m.hdr.cmd ≠ 16) :
    (exec cfg env st m).out = .bytes [] := by
  have hp : ∀ (st : St) (r : Res (List Byte)) (evs : List Ev) e,
      (Done.pure st m.fds r (.bytes []) evs).res = .err e → (Done.pure st m.fds r (.bytes []) evs).out = .bytes [] := by
    intro st r evs e h
    cases r with
    | ok l => cases h
    | err e => rfl
    | fault f => rfl
  have hr : ∀ (st : St) (r : Res Region.Reply) e,
      (Done.reply st m.fds r (.bytes [])).res = .err e → (Done.reply st m.fds r (.bytes [])).out = .bytes [] := by
    intro st r e h
    cases r with
    | ok l => cases h
    | err e => rfl
    | fault f => rfl
  have hno : ∀ {α : Type} (r : Res α) n, nullOut env.alloc r n = .bytes [] := fun r n => by rw [ha]; rfl
  revert he
  refine exec_elim (P := fun d => d.res = .err e → d.out = .bytes []) cfg env st m ?_ ?_ ?_ ?_ ?_ ?_ ?_ ?_ ?_ ?_ ?_ ?_ ?_ ?_ ?_
  · exact fun _ _ h => by cases h
  · exact fun c _ _ => dmaMap_elim (P := fun d => d.res = .err e → d.out = .bytes []) cfg env st c m.body m.fds
      (fun _ _ _ => rfl) (fun _ _ _ => rfl)
  · intro c _ _
    unfold dmaUnmap
    by_cases hb : m.body = []
    · rw [if_pos hb]; exact fun _ => rfl
    rw [if_neg hb]
    cases validUnmap m.body with
    | err e => exact fun _ => rfl
    | fault f => exact fun _ => rfl
    | ok u =>
      dsimp only
      cases (Dma.handleUnmap env.alloc cfg.dma.hasUnreg c (leAt m.body 8 8) (leAt m.body 16 8) (unmapKind env m.body)).2.1 with
      | ok x => cases x <;> exact fun h => by cases h
      | okEmpty => exact fun _ => rfl
      | err e => exact fun _ => rfl
      | fault f => exact fun _ => rfl
  · exact fun _ => by unfold getInfo; dsimp only; rw [hno]; exact hp _ _ _ _
  · exact fun _ => by unfold regionInfo; dsimp only; rw [hno]; exact hr _ _ _
  · exact fun _ => by unfold regionIoFds; dsimp only; rw [hno]; exact hr _ _ _
  · exact fun _ => by unfold irqInfo; dsimp only; rw [hno]; exact hp _ _ _ _
  · exact fun _ _ => rfl
  · exact fun h => absurd h hc.1
  · exact fun h => absurd h hc.2.1
  · exact fun _ _ => rfl
  · exact fun h => absurd h hc.2.2
  · exact fun _ => by unfold migRead; dsimp only; rw [hno]; exact hp _ _ _ _
  · exact fun _ => hp _ _ _ _
  · exact fun _ _ => rfl

/-- **C49**: the answer to a request that was executed without a fault.  With `r` the outcome of the handler: nothing if
no reply is wanted, else one message with the id and command of the request, marked as a reply, the error flag set and the
error number that of the handler exactly when it failed (with an error number other than 0), followed by what the handler
left, the size field counting all of it.  A failed command leaves an empty body, except region accesses and device
features. -/
theorem C49_answer (cfg : Cfg) (ht : TableOk cfg.tbl) (env : Env) (k : Nat) (st : St) (m : Msg) (hf : m.hdr.Fits)
    (hs : Wire.Healthy env.snd) (ha : env.alloc = true) (hno : (exec cfg env st m).res.isFault = false) :
    ∃ body fds, (exec cfg env st m).out = .bytes body ∧ (exec cfg env st m).outFds = fds.map some ∧
      (m.hdr.noReply = true → (handleRequest cfg env k st m).evs =
        .exec m.hdr :: (exec cfg env st m).evs ++ closes (exec cfg env st m).left ++ [.freed]) ∧
      (m.hdr.noReply = false → ∃ w, (handleRequest cfg env k st m).evs =
          .exec m.hdr :: (exec cfg env st m).evs ++ [.sent w] ++ closes (exec cfg env st m).left ++ [.freed] ∧
        w.fds = fds ∧
        (body.length + 16 < U32 → ((exec cfg env st m).res = .ok () → Wire.IsReply m.hdr 0 body w.bytes) ∧
          ∀ e, e < U32 → (exec cfg env st m).res = .err e → Wire.IsReply m.hdr e body w.bytes)) ∧
      (∀ e, (exec cfg env st m).res = .err e → m.hdr.cmd ≠ 9 ∧ m.hdr.cmd ≠ 10 ∧ m.hdr.cmd ≠ 16 → body = []) := by
  obtain ⟨body, hb⟩ := exec_bytes cfg env st m ha
  obtain ⟨fds, hfd⟩ := (exec_fds cfg env st m).2.2 ht
  refine ⟨body, fds, hb, hfd, ?_, ?_, ?_⟩
  · intro hn
    unfold handleRequest finish doReply
    dsimp only
    rw [if_neg (by simp [hno]), if_pos hn]
    simp [Res.isFault]
  · intro hn
    obtain ⟨w, h1, _, h3, h4⟩ := reply_ok env.snd hs m.hdr hf body fds (replyErr (exec cfg env st m).res % U32)
      (Nat.mod_lt _ (by decide))
    refine ⟨w, ?_, h3, fun hl => ⟨fun hr => ?_, fun e he hr => ?_⟩⟩
    · have hd : doReply cfg env k (exec cfg env st m).st m.hdr (exec cfg env st m).out (exec cfg env st m).outFds
          (replyErr (exec cfg env st m).res) = { st := (exec cfg env st m).st, res := .ok (), evs := [.sent w] } := by
        unfold doReply
        rw [if_neg (by simp [hn]), hb, hfd, h1]
        rfl
      unfold handleRequest finish
      dsimp only
      rw [if_neg (by simp [hno]), hd]
      simp [Res.isFault]
    · rw [hr] at h4; exact h4 hl
    · rw [hr] at h4
      have := h4 hl
      rw [show replyErr (.err e) = e from rfl, Nat.mod_eq_of_lt he] at this
      exact this
  · intro e he hc
    have := exec_err_body cfg env st m ha he hc
    rw [hb] at this
    cases this
    rfl

section
open Demo

/-- C49 fails for region accesses: the device refuses a read of BAR 0, and the error reply echoes the request and carries
the buffer. -/
theorem C49_error_body_violated :
    let m : Msg := ⟨hdr 1 9 0 16, enc 8 8 ++ enc 4 0 ++ enc 4 4, []⟩
    let bad : Env := { env with region := fun _ _ b _ => (.err 5, b) }
    (exec cfg bad st m).res = .err 5 ∧ ∃ body, (exec cfg bad st m).out = .bytes body ∧ body.length = 20 :=
  ⟨by decide, _, rfl, by decide⟩

/-- and for failed settings of the migration state, whose reply echoes the request. -/
theorem C49_error_body_violated' :
    let m : Msg := ⟨hdr 1 16 0 16, stateBody 3, []⟩
    let bad : Env := { env with migCb := fun _ => some 5 }
    (exec cfg bad st m).res = .err 5 ∧ ∃ body, (exec cfg bad st m).out = .bytes body ∧ body.length = 16 :=
  ⟨by decide, _, rfl, by decide⟩

/-- Nor is every failure marked: a dirty page report over two regions fails with `errno` 0, and the reply looks like
success, without the bitmap. -/
theorem C49_error_zero_violated :
    let st2 := (run cfg st [.run env (req 1 2 0 (mapBody 0x100000) [5]), .run env (req 2 2 0 (mapBody 0x300000) [6]),
      .run env (req 3 16 0 logBody [])]).1
    let m : Msg := ⟨hdr 4 16 0 32, reportBody, []⟩
    (exec cfg env st2 m).res = .err 0 ∧ (exec cfg env st2 m).out = .bytes [] := by
  refine ⟨?_, ?_⟩ <;> decide +kernel

/-- A read of BAR 0 and a mapping with unknown flags. -/
example : (exec cfg env st ⟨hdr 1 9 0 16, enc 8 8 ++ enc 4 0 ++ enc 4 4, []⟩).res = .ok () ∧
    (exec cfg env st ⟨hdr 2 2 0 32, enc 4 32 ++ enc 4 8 ++ enc 8 0 ++ enc 8 0 ++ enc 8 0x1000, []⟩).res = .err 22 :=
  ⟨by decide, by decide⟩

end

/-! ## C51 -/

theorem addFdIndex_len {cap : Nat} {fds fds' : List Fd} {x : Option Fd} {i : Option Nat}
    (h : Region.addFdIndex cap fds x = .ok (fds', i)) : fds'.length ≤ fds.length + (x.toList).length := by
  unfold Region.addFdIndex at h
  cases x with
  | none => cases h; simp
  | some x =>
    dsimp only at h
    split at h
    · cases h; simp
    · split at h
      · cases h; simp
      · cases h

theorem subBytes_len {cap : Nat} {fds fds' : List Fd} {s : Region.Sub} {b : List Byte}
    (h : Region.subBytes cap fds s = .ok (fds', b)) :
    fds'.length ≤ fds.length + s.fd.toList.length + s.shadowFd.toList.length := by
  unfold Region.subBytes at h
  cases h1 : Region.addFdIndex cap fds s.fd with
  | err e => rw [h1] at h; cases h
  | fault f => rw [h1] at h; cases h
  | ok x =>
    obtain ⟨fds1, i⟩ := x
    rw [h1] at h
    have l1 := addFdIndex_len h1
    dsimp only at h
    cases hs : s.shadowFd with
    | none => rw [hs] at h; cases h; simpa using l1
    | some y =>
      rw [hs] at h
      dsimp only at h
      cases h2 : Region.addFdIndex cap fds1 (some y) with
      | err e => rw [h2] at h; cases h
      | fault f => rw [h2] at h; cases h
      | ok z =>
        obtain ⟨fds2, j⟩ := z
        rw [h2] at h
        have l2 := addFdIndex_len h2
        cases h
        omega

/-- The descriptors behind the sub-regions of a region. -/
def fdsOf (r : Region.Reg) : List Fd := r.subs.flatMap (fun s => s.fd.toList ++ s.shadowFd.toList)

theorem subsLoop_len {cap : Nat} (ss : List Region.Sub) : ∀ {fds fds' : List Fd} {b : List Byte},
    Region.subsLoop cap ss fds = .ok (fds', b) →
    fds'.length ≤ fds.length + (ss.flatMap (fun s => s.fd.toList ++ s.shadowFd.toList)).length := by
  induction ss with
  | nil => intro fds fds' b h; cases h; simp
  | cons s ss ih =>
    intro fds fds' b h
    unfold Region.subsLoop at h
    cases h1 : Region.subBytes cap fds s with
    | err e => rw [h1] at h; cases h
    | fault f => rw [h1] at h; cases h
    | ok x =>
      obtain ⟨fds1, b1⟩ := x
      rw [h1] at h
      dsimp only at h
      cases h2 : Region.subsLoop cap ss fds1 with
      | err e => rw [h2] at h; cases h
      | fault f => rw [h2] at h; cases h
      | ok y =>
        obtain ⟨fds2, b2⟩ := y
        rw [h2] at h
        cases h
        have l1 := subBytes_len h1
        have l2 := ih h2
        rw [List.flatMap_cons, List.length_append, List.length_append]
        omega

theorem ioFds_len {alloc : Bool} {tbl : List Region.Reg} {body : List Byte} {r : Region.Reply}
    (h : Region.regionIoFds alloc tbl body = .ok r) : r.fds = [] ∨ ∃ x ∈ tbl, r.fds.length ≤ (fdsOf x).length := by
  unfold Region.regionIoFds at h
  by_cases h1 : body.length < 16
  · rw [if_pos h1] at h; cases h
  rw [if_neg h1] at h
  by_cases h2 : leAt body 4 4 ≠ 0 ∨ leAt body 12 4 ≠ 0
  · rw [if_pos h2] at h; cases h
  rw [if_neg h2] at h
  cases ht : tbl[leAt body 8 4]? with
  | none => rw [ht] at h; cases h
  | some x =>
    rw [ht] at h
    have hx : x ∈ tbl := List.mem_of_getElem? ht
    dsimp only at h
    generalize (if min ((leAt body 0 4 - 16) / 48) x.subs.length ≥ x.subs.length then x.subs.length else 0) = room at h
    split at h
    · cases h
    split at h
    · cases h
    split at h
    · cases h
    split at h
    · split at h
      · cases h
      split at h
      · cases h
      · cases h
      · rename_i hl
        cases h
        refine .inr ⟨x, hx, ?_⟩
        have l := subsLoop_len _ hl
        rw [List.length_map]
        refine l.trans ?_
        simp only [List.length_nil, Nat.zero_add]
        unfold fdsOf
        conv_rhs => rw [← List.take_append_drop (min ((leAt body 0 4 - 16) / 48) x.subs.length) x.subs,
          List.flatMap_append, List.length_append]
        omega
    · cases h; exact .inl rfl

/-- A bound on the descriptors any reply of the device's regions carries. -/
def DescBound (tbl : List Region.Reg) (n : Nat) : Prop :=
  ∀ r ∈ tbl, (r.areas ≠ [] → 1 ≤ n) ∧ (fdsOf r).length ≤ n

theorem exec_fds_len (cfg : Cfg) (env : Env) (st : St) (m : Msg) {n : Nat} (hn : DescBound cfg.tbl n) :
    (exec cfg env st m).outFds.length ≤ n := by
  refine exec_elim (P := fun d => d.outFds.length ≤ n) cfg env st m ?_ ?_ ?_ ?_ ?_ ?_ ?_ ?_ ?_ ?_ ?_ ?_ ?_ ?_ ?_
  · exact fun _ _ => Nat.zero_le _
  · exact fun c _ _ => dmaMap_elim (P := fun d => d.outFds.length ≤ n) cfg env st c m.body m.fds
      (fun _ _ => Nat.zero_le _) (fun _ _ => Nat.zero_le _)
  · exact fun c _ _ => dmaUnmap_elim (P := fun d => d.outFds.length ≤ n) cfg env st c m.body m.fds
      (fun _ _ => Nat.zero_le _) (fun _ _ _ _ => Nat.zero_le _)
  · exact fun _ => Nat.zero_le _
  · intro _
    unfold regionInfo Done.reply
    dsimp only
    cases hr : Region.regionInfo env.alloc cfg.tbl m.body with
    | err e => exact Nat.zero_le _
    | fault f => exact Nat.zero_le _
    | ok r =>
      rcases regionInfo_fds hr with h | ⟨x, hx, h1, h2⟩
      · dsimp only; rw [h]; exact Nat.zero_le _
      · dsimp only; rw [h2]; exact (hn x hx).1 h1
  · intro _
    unfold regionIoFds Done.reply
    dsimp only
    cases hr : Region.regionIoFds env.alloc cfg.tbl m.body with
    | err e => exact Nat.zero_le _
    | fault f => exact Nat.zero_le _
    | ok r =>
      rcases ioFds_len hr with h | ⟨x, hx, h⟩
      · dsimp only; rw [h]; exact Nat.zero_le _
      · exact h.trans (hn x hx).2
  · exact fun _ => Nat.zero_le _
  · exact fun _ => Nat.zero_le _
  · exact fun _ => Nat.zero_le _
  · exact fun _ => Nat.zero_le _
  · exact fun _ => Nat.zero_le _
  · exact fun _ => Nat.zero_le _
  · exact fun _ => Nat.zero_le _
  · exact fun _ => Nat.zero_le _
  · exact fun _ => Nat.zero_le _

theorem next_fds {s : Wire.Sock} : (∀ h b f, (Wire.next s).1 = .req h b f → f.length ≤ 1024) ∧
    (∀ h f e, (Wire.next s).1 = .bad h f e → f.length ≤ 1024) := by
  have hh : ∀ h f s1, Wire.getHeader s = (.ok (h, f), s1) → f.length ≤ 1024 := by
    intro h f s1 hx
    unfold Wire.getHeader at hx
    split at hx
    · simp at hx
    · simp at hx
    · split at hx
      · simp at hx
      · split at hx
        · simp at hx
        · rename_i hc
          simp only [Prod.mk.injEq, Except.ok.injEq] at hx
          rw [← hx.1.2]
          exact Nat.le_of_not_gt hc
  have he : ∀ i s1, Wire.getHeader s = (.error i, s1) → (∀ hd b f, i ≠ .req hd b f) ∧ (∀ hd f e, i ≠ .bad hd f e) := by
    intro x s1 hx
    unfold Wire.getHeader at hx
    split at hx
    · simp only [Prod.mk.injEq, Except.error.injEq] at hx; rw [← hx.1]; simp
    · simp only [Prod.mk.injEq, Except.error.injEq] at hx; rw [← hx.1]; simp
    · split at hx
      · simp only [Prod.mk.injEq, Except.error.injEq] at hx; rw [← hx.1]; simp
      · split at hx
        · simp only [Prod.mk.injEq, Except.error.injEq] at hx; rw [← hx.1]; simp
        · simp at hx
  unfold Wire.next
  cases hg : Wire.getHeader s with
  | mk r s1 =>
    cases r with
    | error i => exact ⟨fun h b f e => absurd e ((he i s1 hg).1 h b f), fun h f n e => absurd e ((he i s1 hg).2 h f n)⟩
    | ok x =>
      obtain ⟨hd, fds⟩ := x
      have hl := hh hd fds s1 hg
      dsimp only
      split
      · exact ⟨fun _ _ _ h => by simp at h, fun _ _ _ h => by simp only [Wire.In.bad.injEq] at h; rw [← h.2.1]; exact hl⟩
      · split
        · split
          · exact ⟨fun _ _ _ h => by simp at h,
              fun _ _ _ h => by simp only [Wire.In.bad.injEq] at h; rw [← h.2.1]; exact hl⟩
          · exact ⟨fun _ _ _ h => by simp only [Wire.In.req.injEq] at h; rw [← h.2.2]; exact hl,
              fun _ _ _ h => by simp at h⟩
        · exact ⟨fun _ _ _ h => by simp only [Wire.In.req.injEq] at h; rw [← h.2.2]; exact hl,
            fun _ _ _ h => by simp at h⟩

/-- **C51**: no message of any history carries more descriptors than the regions of the device call for: one for a
mappable region, those of the sub-regions of one region for an io-fds query.  So a client that negotiated at least that
many never gets more than it negotiated.  Requests never bring more than 1024. -/
theorem C51_descriptors (cfg : Cfg) (n : Nat) (hn : DescBound cfg.tbl n) (st : St) (hp : st.pending = .none)
    (ops : List Op) (ho : ∀ op ∈ ops, op.Good Real) :
    (∀ w, .sent w ∈ (run cfg st ops).2 → w.fds.length ≤ n) ∧
    (∀ h fds, .got h fds ∈ (run cfg st ops).2 → fds.length ≤ 1024) := by
  have H : Closed cfg (fun e => (∀ w, e = .sent w → w.fds.length ≤ n) ∧ (∀ h fds, e = .got h fds → fds.length ≤ 1024)) Real :=
    { inner := fun e he => ⟨fun w => by rintro rfl; exact he.elim, fun h f => by rintro rfl; exact he.elim⟩
      freed := by simp, detach := by simp, ret := by simp, lost := by simp, devQuiesced := by simp
      gotReq := fun h b f hg => ⟨by simp, fun h' f' e => by
        cases e; obtain ⟨s, hs⟩ := hg; exact next_fds.1 _ _ _ hs.symm⟩
      gotBad := fun h f e hg => ⟨by simp, fun h' f' e => by
        cases e; obtain ⟨s, hs⟩ := hg; exact next_fds.2 _ _ _ hs.symm⟩
      exec := by simp
      answer := fun env st m w err hw => ⟨fun w' e => by
        cases e
        rcases reply_sent env.snd m.hdr (exec cfg env st m).out (exec cfg env st m).outFds err with hx | ⟨w2, hx, hw2⟩
        · rw [hx] at hw; cases hw
        · rw [hx] at hw
          rw [List.mem_singleton.mp hw, hw2]
          exact (List.length_filterMap_le _ _).trans (exec_fds_len cfg env st m hn), by simp⟩
      refusal := fun env h w err hw => ⟨fun w' e => by
        cases e
        rcases reply_sent env.snd h (.bytes []) [] err with hx | ⟨w2, hx, hw2⟩
        · rw [hx] at hw; cases hw
        · rw [hx] at hw
          rw [List.mem_singleton.mp hw, hw2]
          exact Nat.zero_le _, by simp⟩ }
  have hr := H.run st (fun m h => by rw [hp] at h; cases h) ops ho
  exact ⟨fun w hw => (hr _ hw).1 w rfl, fun h f hf => (hr _ hf).2 h f rfl⟩

section
open Demo

/-- A device whose BAR 0 can be mapped. -/
def mappable : Cfg :=
  { cfg with tbl := { Region.Reg.blank with flags := 7, size := 4096, hasCb := true, areas := [(0, 4096)], fd := some 9 } ::
      List.replicate 8 Region.Reg.blank }

example : DescBound mappable.tbl 1 := by
  intro r hr
  simp only [mappable, List.mem_cons, List.mem_replicate] at hr
  rcases hr with rfl | ⟨_, rfl⟩ <;> exact ⟨fun _ => by decide, by decide⟩

set_option maxRecDepth 8000 in
/-- C51 as a statement about the negotiated maximum fails: a client that negotiated none is sent one. -/
theorem C51_negotiated_violated :
    let ops := [Op.run env (req 1 5 0 (enc 4 4096 ++ enc 4 0 ++ enc 4 0 ++ enc 4 0 ++ enc 8 0 ++ enc 8 0) [])]
    { st with maxFds := 0 }.maxFds = 0 ∧
    ∃ w, .sent w ∈ (run mappable { st with maxFds := 0 } ops).2 ∧ w.fds.length = 1 :=
  ⟨rfl, _, List.mem_cons_of_mem _ (List.mem_cons_of_mem _ (List.mem_cons_self ..)), by decide⟩

end

end Verif.Server
