import Verif.Server.Turn

/-!
# A request that is executed at once

The library waits for a request, the migration state permits it, and the device needs no time to quiesce: then the call
executes the request and answers it.  Theorems about requests are lifted to calls by this. -/

namespace Verif.Server
open Verif
open Verif.Dma (Fd)

/-- The client is connected and no request is being processed. -/
structure Awaits (st : St) : Prop where
  conn : st.conn = true
  pending : st.pending = .none

/-- Neither STOP (1) nor STOP_COPY (3), or a command permitted in these states: region access (9, 10), device feature (16),
migration data read (17). -/
def Permitted (st : St) (cmd : Nat) : Prop :=
  (st.mig ≠ some 1 ∧ st.mig ≠ some 3) ∨ cmd = 9 ∨ cmd = 10 ∨ cmd = 16 ∨ cmd = 17

theorem Permitted.exec {st : St} {cmd : Nat} (h : Permitted st cmd) : shouldExec st.mig cmd = true := by
  unfold shouldExec
  rcases h with ⟨h1, h2⟩ | h
  · rw [if_neg, if_neg]
    · simpa [stopped, Mig.STOP] using h1
    · simpa [stopCopy, Mig.STOP_COPY] using h2
  · have : allowedStopped cmd = true := by rcases h with rfl | rfl | rfl | rfl <;> decide
    simp [this]

/-- The reply to `m`: error number `e` (0: success), payload `l`; none if the client wants none. -/
def Answered (m : Msg) (e : Nat) (l : List Byte) (o : Out) : Prop :=
  o.res = .ok () ∧ (m.hdr.noReply = true → sents o.evs = []) ∧
    (m.hdr.noReply = false → ∃ w, sents o.evs = [w] ∧ Tells w e l ∧
      (l.length + 16 < U32 → Wire.IsReply m.hdr e l w.bytes))

/-- The state in which the request is executed. -/
def ready (cfg : Cfg) (st : St) (m : Msg) : St := { st with quiesced := needsQuiesce cfg st m || st.quiesced }

theorem handle_res (cfg : Cfg) (ht : TableOk cfg.tbl) (env : Env) (hf : env.Fair) (k : Nat) (st : St) (m : Msg)
    (hm : m.hdr.Fits) (hno : (exec cfg env st m).res.isFault = false) : (handleRequest cfg env k st m).res = .ok () := by
  obtain ⟨l, hl⟩ := exec_bytes cfg env st m hf.alloc
  obtain ⟨fds, hfd⟩ := (exec_fds cfg env st m).2.2 ht
  unfold handleRequest finish
  dsimp only
  rw [if_neg (by rw [hno]; simp)]
  have key : (doReply cfg env k (exec cfg env st m).st m.hdr (exec cfg env st m).out
      (exec cfg env st m).outFds (replyErr (exec cfg env st m).res)).res = .ok () := by
    unfold doReply
    by_cases hn : m.hdr.noReply = true
    · rw [if_pos hn]
    rw [if_neg hn, hl, hfd]
    obtain ⟨w, g1, _⟩ := reply_ok env.snd hf.snd m.hdr hm l fds (replyErr (exec cfg env st m).res % U32)
      (Nat.mod_lt _ (by decide))
    rw [g1]
  rw [key]
  rfl

/-- The callbacks that ran. -/
def calls (l : List Ev) : List Call := l.filterMap fun
  | .call c _ => some c
  | _ => none

theorem calls_append (a b : List Ev) : calls (a ++ b) = calls a ++ calls b := List.filterMap_append ..

theorem calls_closes (l : List (Option Fd)) : calls (closes l) = [] := by
  unfold calls closes
  rw [List.filterMap_eq_nil_iff]
  intro e he
  obtain ⟨x, _, rfl⟩ := List.mem_map.mp he
  rfl

theorem calls_sent (ws : List Wire.Sent) : calls (ws.map Ev.sent) = [] := by
  unfold calls
  rw [List.filterMap_eq_nil_iff]
  intro e he
  obtain ⟨x, _, rfl⟩ := List.mem_map.mp he
  rfl

/-- The interrupts signalled. -/
def signals (l : List Ev) : List Fd := l.filterMap fun
  | .signal fd => some fd
  | _ => none

/-- The descriptors closed. -/
def shut (l : List Ev) : List Fd := l.filterMap fun
  | .close fd => some fd
  | _ => none

theorem signals_append (a b : List Ev) : signals (a ++ b) = signals a ++ signals b := List.filterMap_append ..
theorem shut_append (a b : List Ev) : shut (a ++ b) = shut a ++ shut b := List.filterMap_append ..

theorem signals_closes (l : List (Option Fd)) : signals (closes l) = [] := by
  unfold signals closes
  rw [List.filterMap_eq_nil_iff]
  intro e he
  obtain ⟨x, _, rfl⟩ := List.mem_map.mp he
  rfl

theorem shut_closes (l : List (Option Fd)) : shut (closes l) = l.filterMap id := by
  unfold shut closes
  induction l.filterMap id with
  | nil => rfl
  | cons x l ih => rw [List.map_cons, List.filterMap_cons, ih]

theorem signals_sent (ws : List Wire.Sent) : signals (ws.map Ev.sent) = [] := by
  unfold signals
  rw [List.filterMap_eq_nil_iff]
  intro e he
  obtain ⟨x, _, rfl⟩ := List.mem_map.mp he
  rfl

theorem shut_sent (ws : List Wire.Sent) : shut (ws.map Ev.sent) = [] := by
  unfold shut
  rw [List.filterMap_eq_nil_iff]
  intro e he
  obtain ⟨x, _, rfl⟩ := List.mem_map.mp he
  rfl

/-- The callbacks of an executed request, and the descriptors of its reply; the interrupts, the closed descriptors. -/
theorem handle_calls (cfg : Cfg) (ht : TableOk cfg.tbl) (env : Env) (hf : env.Fair) (k : Nat) (st : St) (m : Msg)
    (hm : m.hdr.Fits) (hno : (exec cfg env st m).res.isFault = false) :
    calls (handleRequest cfg env k st m).evs = calls (exec cfg env st m).evs ∧
      (∀ w ∈ sents (handleRequest cfg env k st m).evs, w.fds.map some = (exec cfg env st m).outFds) ∧
      signals (handleRequest cfg env k st m).evs = signals (exec cfg env st m).evs ∧
      shut (handleRequest cfg env k st m).evs = shut (exec cfg env st m).evs ++ (exec cfg env st m).left.filterMap id := by
  obtain ⟨l, hl⟩ := exec_bytes cfg env st m hf.alloc
  obtain ⟨fds, hfd⟩ := (exec_fds cfg env st m).2.2 ht
  obtain ⟨e1, _⟩ := inner_quiet (tame_exec cfg env st m).evs
  obtain ⟨c1, _⟩ := inner_quiet (inner_closes (exec cfg env st m).left)
  have key : ∃ ws : List Wire.Sent, doReply cfg env k (exec cfg env st m).st m.hdr (exec cfg env st m).out
      (exec cfg env st m).outFds (replyErr (exec cfg env st m).res) =
        { st := (exec cfg env st m).st, res := .ok (), evs := ws.map Ev.sent } ∧
      ∀ w ∈ ws, w.fds.map some = (exec cfg env st m).outFds := by
    unfold doReply
    by_cases hn : m.hdr.noReply = true
    · rw [if_pos hn]; exact ⟨[], rfl, fun _ h => by cases h⟩
    rw [if_neg hn, hl, hfd]
    obtain ⟨w, g1, _, g3, _⟩ := reply_ok env.snd hf.snd m.hdr hm l fds (replyErr (exec cfg env st m).res % U32)
      (Nat.mod_lt _ (by decide))
    rw [g1]
    exact ⟨[w], rfl, fun w' h => by rw [List.mem_singleton.mp h, g3]⟩
  obtain ⟨ws, k1, k2⟩ := key
  have hx : handleRequest cfg env k st m = { st := (exec cfg env st m).st, res := .ok (), evs :=
      (.exec m.hdr :: (exec cfg env st m).evs ++ ws.map Ev.sent ++ closes (exec cfg env st m).left ++ [.freed]) } := by
    unfold handleRequest finish
    dsimp only
    rw [if_neg (by rw [hno]; simp), k1]
    rfl
  rw [hx]
  dsimp only
  refine ⟨?_, ?_, ?_, ?_⟩
  · rw [calls_append, calls_append, calls_append, calls_sent, calls_closes]
    simp [calls]
  · rw [sents_append, sents_append, sents_append, sents_cons (by simp), e1, sents_map, c1]
    simpa [sents] using k2
  · rw [signals_append, signals_append, signals_append, signals_sent, signals_closes]
    simp [signals]
  · rw [shut_append, shut_append, shut_append, shut_sent, shut_closes]
    simp [shut]

/-- The call that receives `m` does what `exec` does, and answers accordingly. -/
structure Served (cfg : Cfg) (env : Env) (st : St) (m : Msg) (l : List Byte) : Prop where
  out : (exec cfg env (ready cfg st m) m).out = .bytes l
  tables : Same4 (call cfg st (.run env (.req m.hdr m.body m.fds))).st (exec cfg env (ready cfg st m) m).st
  stays : .detach ∉ (call cfg st (.run env (.req m.hdr m.body m.fds))).evs
  reply : Answered m (replyErr (exec cfg env (ready cfg st m) m).res % U32) l
    (call cfg st (.run env (.req m.hdr m.body m.fds)))
  calls : calls (call cfg st (.run env (.req m.hdr m.body m.fds))).evs =
    (if needsQuiesce cfg st m = true then [.quiesce none] else []) ++ calls (exec cfg env (ready cfg st m) m).evs
  fds : ∀ w ∈ sents (call cfg st (.run env (.req m.hdr m.body m.fds))).evs,
    w.fds.map some = (exec cfg env (ready cfg st m) m).outFds
  signals : signals (call cfg st (.run env (.req m.hdr m.body m.fds))).evs = signals (exec cfg env (ready cfg st m) m).evs
  shut : shut (call cfg st (.run env (.req m.hdr m.body m.fds))).evs =
    shut (exec cfg env (ready cfg st m) m).evs ++ (exec cfg env (ready cfg st m) m).left.filterMap id

theorem served {cfg : Cfg} (ht : TableOk cfg.tbl) {env : Env} (hf : env.Fair) {st : St} (ha : Awaits st) {m : Msg}
    (hp : Permitted st m.hdr.cmd) (hq : needsQuiesce cfg st m = true → env.quiesce 0 = none) (hm : m.hdr.Fits)
    (hno : (exec cfg env (ready cfg st m) m).res.isFault = false) :
    ∃ l, Served cfg env st m l := by
  have hc' : ¬ st.conn = false := by rw [ha.conn]; simp
  have hp' := not_not_intro ha.pending
  have key : ∀ (k : Nat) (p : List Ev), sents p = [] → .detach ∉ p →
      Server.calls p = (if needsQuiesce cfg st m = true then [.quiesce none] else []) →
      Server.signals p = [] → Server.shut p = [] →
      call cfg st (.run env (.req m.hdr m.body m.fds)) =
        { st := { (handleRequest cfg env k (ready cfg st m) m).st with quiesced := false }
          res := (handleRequest cfg env k (ready cfg st m) m).res
          evs := p ++ (handleRequest cfg env k (ready cfg st m) m).evs } → ∃ l, Served cfg env st m l := by
    intro k p p1 p2 p3 p4 p5 hx
    obtain ⟨q1, q2, q3, q4⟩ := handle_calls cfg ht env hf k (ready cfg st m) m hm hno
    have hr := handle_res cfg ht env hf k (ready cfg st m) m hm hno
    obtain ⟨l, _, g2, g3, g4, g5, g6⟩ := handle_turn cfg ht env hf k (ready cfg st m) m hm (by rw [hr]; rfl)
    have hs : sents (call cfg st (.run env (.req m.hdr m.body m.fds))).evs =
        sents (handleRequest cfg env k (ready cfg st m) m).evs := by rw [hx]; dsimp only; rw [sents_append, p1]; rfl
    refine ⟨l, g4, ?_, ?_, ⟨?_, ?_, ?_⟩, ?_, ?_, ?_, ?_⟩
    · rw [hx, ← g2]; exact ⟨rfl, rfl, rfl, rfl⟩
    · rw [hx]
      intro h
      rcases List.mem_append.mp h with h | h
      · exact p2 h
      · exact g3 h
    · rw [hx]; exact hr
    · rw [hs]; exact g5
    · rw [hs]; exact g6
    · rw [hx]; dsimp only; rw [calls_append, p3, q1]
    · rw [hs]; exact q2
    · rw [hx]; dsimp only; rw [signals_append, p4, q3]; rfl
    · rw [hx]; dsimp only; rw [shut_append, p5, q4]; rfl
  cases hn : needsQuiesce cfg st m with
  | true =>
    obtain ⟨b1, b2⟩ := quiesce_quiet none st.quiesced
    refine key 1 (.got m.hdr m.fds :: bracket .quiesce (.quiesce none) st.quiesced) b1 ?_ (by rw [hn]; rfl) rfl rfl ?_
    · intro h
      rcases List.mem_cons.mp h with h | h
      · cases h
      · exact b2 h
    · unfold ready
      simp only [call, poll, if_neg hp', if_neg hc', dispatch, hp.exec, hn, hq hn]
      rfl
  | false =>
    refine key 0 [.got m.hdr m.fds] rfl (by simp) (by rw [hn]; rfl) rfl rfl ?_
    unfold ready
    simp only [call, poll, if_neg hp', if_neg hc', dispatch, hp.exec, hn]
    rfl

/-- The next request: received by a waiting library, permitted, and the device quiesces at once. -/
structure Next (cfg : Cfg) (env : Env) (st : St) (m : Msg) : Prop where
  fair : env.Fair
  os : env.os.Ok
  real : Real (.req m.hdr m.body m.fds)
  awaits : Awaits st
  permitted : Permitted st m.hdr.cmd
  quiesce : cfg.hasQuiesce = true → env.quiesce 0 = none

theorem Next.served {cfg : Cfg} (ht : TableOk cfg.tbl) {env : Env} {st : St} {m : Msg} (h : Next cfg env st m)
    (hno : (exec cfg env (ready cfg st m) m).res.isFault = false) : ∃ l, Served cfg env st m l := by
  refine Server.served ht h.fair h.awaits h.permitted (fun hq => h.quiesce ?_) ((real_fits h.real).1 _ _ _ rfl) hno
  unfold needsQuiesce at hq
  cases hc : cfg.hasQuiesce with
  | true => rfl
  | false => rw [hc] at hq; cases hq

/-! ## For the examples -/

section
open Demo

theorem fair_env {e : Env} (h1 : e.snd = env.snd) (h2 : e.alloc = true) (h3 : e.os = os)
    (h4 : ∀ k x, e.quiesce k = some x → x = EBUSY) : e.Fair where
  snd := by rw [h1]; intro n; rfl
  alloc := h2
  quiesce := fun k x h => by rw [h4 k x h]; exact ⟨by decide, by decide⟩
  mmap := fun len off x h => by
    rw [h3] at h
    simp only [os] at h
    split_ifs at h
    cases h
    exact ⟨by decide, by decide⟩

theorem env_fair : env.Fair := fair_env rfl rfl rfl (fun _ _ h => by cases h)
theorem busy_fair : busy.Fair := fair_env rfl rfl rfl (fun _ _ h => by cases h; rfl)

theorem next_req {c : Cfg} {e : Env} (hf : e.Fair) (ho : e.os = os) (hq : e.quiesce 0 = none) {st : St} (ha : Awaits st)
    (hm : st.mig = some 2) (id cmd : Nat) (body : List Byte) (fds : List Fd) (h1 : id < 65536) (h2 : cmd < 65536)
    (h5 : body.length ≤ 1048576 + 16) (h6 : body ≠ []) (h7 : fds.length ≤ 1024) :
    Next c e st ⟨hdr id cmd 0 body.length, body, fds⟩ :=
  ⟨hf, env_ok ho, req_real _ _ _ _ _ h1 h2 (by decide) (by decide) h5 (.inl h6) h7, ha, .inl (by rw [hm]; decide), fun _ => hq⟩

end

end Verif.Server
