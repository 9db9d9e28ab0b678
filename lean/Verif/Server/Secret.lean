import Verif.Server.Mapping
import Verif.Dma.Blind

/-!
# C88: what replies disclose of the server's memory

`handle_dma_unmap` (`lib/libvfio-user.c:822-870`) builds its reply in a buffer from `malloc`; every other reply is built in
zeroed memory or overwritten completely.  Two histories that differ only in what that memory happens to contain. -/

namespace Verif.Server
open Verif
open Verif.Dma (Fd Tbl)

/-- The same environment with other bytes in fresh memory. -/
def Env.soiled (env : Env) (f : Nat → List Byte) : Env := { env with malloc := f }

/-- `malloc` hands out as many bytes as requested. -/
def Sized (f : Nat → List Byte) : Prop := ∀ n, (f n).length = n

/-- The same call, except for the bytes in fresh memory. -/
inductive Twin : Op → Op → Prop
  | run (env : Env) (f : Nat → List Byte) (i : Wire.In) : Sized env.malloc → Sized f →
      Twin (.run env i) (.run (env.soiled f) i)
  | quiesced (env : Env) (f : Nat → List Byte) (e : Nat) : Sized env.malloc → Sized f →
      Twin (.quiesced env e) (.quiesced (env.soiled f) e)
  | transfer (env : Env) (f : Nat → List Byte) (l : Bool) : Sized env.malloc → Sized f →
      Twin (.transfer env l) (.transfer (env.soiled f) l)
  | same (op : Op) : Twin op op

/-! ## Up to the bitmap of an unmap reply -/

/-- The same event, or a reply to DMA_UNMAP (3) whose bytes after the header (16) and the echo of the request (40) may
differ. -/
inductive Near : Ev → Ev → Prop
  | same (e : Ev) : Near e e
  | sent (w w' : Wire.Sent) : w.fds = w'.fds → w.bytes.length = w'.bytes.length → w.bytes.take 56 = w'.bytes.take 56 →
      (Wire.Hdr.ofBytes w.bytes).cmd = 3 → Near (.sent w) (.sent w')

theorem nears (l : List Ev) : List.Forall₂ Near l l := by
  induction l with
  | nil => exact .nil
  | cons e l ih => exact .cons (.same e) ih

theorem nears_append {a a' b b' : List Ev} (h1 : List.Forall₂ Near a a') (h2 : List.Forall₂ Near b b') :
    List.Forall₂ Near (a ++ b) (a' ++ b') := List.rel_append h1 h2

/-- Two outcomes alike up to such bytes. -/
structure Close (o o' : Out) : Prop where
  st : o'.st = o.st
  res : o'.res = o.res
  evs : List.Forall₂ Near o.evs o'.evs

theorem Close.of_eq {o o' : Out} (h : o' = o) : Close o o' := ⟨by rw [h], by rw [h], by rw [h]; exact nears _⟩

/-- Two outcomes of a handler. -/
structure Akin (cmd : Nat) (d d' : Done) : Prop where
  st : d'.st = d.st
  res : d'.res = d.res
  outFds : d'.outFds = d.outFds
  left : d'.left = d.left
  evs : d'.evs = d.evs
  out : d'.out = d.out ∨ ∃ l l', cmd = 3 ∧ d.out = .bytes l ∧ d'.out = .bytes l' ∧ l.length = l'.length ∧
    l.take 40 = l'.take 40

theorem Akin.of_eq {cmd : Nat} {d d' : Done} (h : d' = d) : Akin cmd d d' := by
  subst h; exact ⟨rfl, rfl, rfl, rfl, rfl, .inl rfl⟩

theorem valid_dirty {body : List Byte} {u : Unit} (h : validUnmap body = .ok u) (hk : leAt body 4 4 = 1) :
    40 ≤ body.length := by
  unfold validUnmap at h
  cases h1 : rd body 4 4 with
  | err e => rw [h1] at h; cases h
  | fault e => rw [h1] at h; cases h
  | ok fl =>
    have hfl : fl = UNMAP_DIRTY := by
      unfold rd at h1
      split_ifs at h1
      cases h1
      exact hk
    rw [h1] at h
    dsimp only at h
    rw [if_pos hfl] at h
    cases h2 : rd body 32 8 with
    | err e => rw [h2] at h; cases h
    | fault e => rw [h2] at h; cases h
    | ok n =>
      unfold rd at h2
      split_ifs at h2
      omega

theorem afterCalls_soiled (cfg : Cfg) (env : Env) (f : Nat → List Byte) (q : Bool) : ∀ (cs : List Region.Call) (p : Pci.Pci),
    afterCalls cfg (env.soiled f) q p cs = afterCalls cfg env q p cs := by
  intro cs
  induction cs with
  | nil => intro p; rfl
  | cons c cs ih =>
    intro p
    cases c with
    | config off buf w => simp only [afterCalls, ih]; rfl
    | cb r off buf w => simp only [afterCalls, ih]

theorem handlers_soiled (cfg : Cfg) (env : Env) (f : Nat → List Byte) (p : Pci.Pci) :
    handlers cfg (env.soiled f) p = handlers cfg env p := by
  funext c
  cases c <;> rfl

theorem access_soiled (cfg : Cfg) (env : Env) (f : Nat → List Byte) (st : St) (w : Bool) (body : List Byte)
    (fds : List Fd) : access cfg (env.soiled f) st w body fds = access cfg env st w body fds := by
  unfold access
  rw [handlers_soiled]
  dsimp only
  rw [afterCalls_soiled]
  rfl

section
variable (cfg : Cfg) (env : Env) (f : Nat → List Byte) (he : Sized env.malloc) (hf : Sized f)
include he hf

theorem dmaUnmap_akin (st : St) (c : Dma.Ctl) (body : List Byte) (fds : List Fd) :
    Akin 3 (dmaUnmap cfg env st c body fds) (dmaUnmap cfg (env.soiled f) st c body fds) := by
  by_cases hk : leAt body 4 4 = 1
  case neg =>
    refine .of_eq ?_
    have : unmapKind (env.soiled f) body = unmapKind env body := by
      unfold unmapKind
      by_cases h1 : leAt body 4 4 = UNMAP_ALL
      · rw [if_pos h1, if_pos h1]
      · rw [if_neg h1, if_neg h1]; exact (if_neg hk).trans (if_neg hk).symm
    unfold dmaUnmap
    rw [this]
    rfl
  have hall : ¬ leAt body 4 4 = UNMAP_ALL := by rw [hk]; decide
  unfold dmaUnmap
  by_cases hb : body = []
  · rw [if_pos hb, if_pos hb]; exact .of_eq rfl
  rw [if_neg hb, if_neg hb]
  cases hv : validUnmap body with
  | err e => exact .of_eq rfl
  | fault e => exact .of_eq rfl
  | ok u =>
    have h40 := valid_dirty hv hk
    have key := Dma.handleUnmap_alike env.alloc cfg.dma.hasUnreg c (leAt body 8 8) (leAt body 16 8) (leAt body 24 8)
      (leAt body 32 8) env.hint _ _ ((he (leAt body 32 8)).trans (hf (leAt body 32 8)).symm)
    have k1 : unmapKind env body = .getDirty (leAt body 24 8) (leAt body 32 8) (env.malloc (leAt body 32 8)) env.hint := by
      unfold unmapKind; rw [if_neg hall]; exact if_pos hk
    have k2 : unmapKind (env.soiled f) body = .getDirty (leAt body 24 8) (leAt body 32 8) (f (leAt body 32 8)) env.hint := by
      unfold unmapKind; rw [if_neg hall]; exact if_pos hk
    dsimp only
    rw [k1, k2, show (env.soiled f).alloc = env.alloc from rfl]
    revert key
    generalize Dma.handleUnmap env.alloc cfg.dma.hasUnreg c (leAt body 8 8) (leAt body 16 8)
      (.getDirty (leAt body 24 8) (leAt body 32 8) (env.malloc (leAt body 32 8)) env.hint) = x
    generalize Dma.handleUnmap env.alloc cfg.dma.hasUnreg c (leAt body 8 8) (leAt body 16 8)
      (.getDirty (leAt body 24 8) (leAt body 32 8) (f (leAt body 32 8)) env.hint) = y
    obtain ⟨x1, x2, x3⟩ := x
    obtain ⟨y1, y2, y3⟩ := y
    rintro ⟨h1, h2, h3⟩
    dsimp only at h1 h2 h3
    subst h1 h3
    rcases x2 with (_ | a) | _ | e | e <;> rcases y2 with (_ | b) | _ | e' | e'
    case ok.some.ok.some =>
      refine ⟨rfl, rfl, rfl, rfl, rfl, .inr ⟨_, _, rfl, rfl, rfl, ?_, ?_⟩⟩
      · have : a.length = b.length := h2
        simp [this]
      · rw [List.take_append_of_le_length (by simp; omega), List.take_append_of_le_length (by simp; omega)]
    all_goals first | (cases h2; exact .of_eq rfl) | cases h2

theorem exec_akin (st : St) (m : Msg) : Akin m.hdr.cmd (exec cfg env st m) (exec cfg (env.soiled f) st m) := by
  by_cases hc : m.hdr.cmd = Wire.CMD_DMA_UNMAP
  · have hn : ¬ m.hdr.cmd = Wire.CMD_DMA_MAP := by rw [hc]; decide
    unfold exec
    rw [if_neg hn, if_neg hn, if_pos hc, if_pos hc]
    cases st.dma with
    | none => exact .of_eq rfl
    | some c => rw [hc]; exact dmaUnmap_akin cfg env f he hf st c m.body m.fds
  · refine .of_eq ?_
    unfold exec
    rw [if_neg hc, if_neg hc, access_soiled, access_soiled]
    rfl

omit he hf in
theorem reset_soiled (k : Nat) (st : St) : resetCtx cfg (env.soiled f) k st = resetCtx cfg env k st := rfl

omit he hf in
theorem go_near (h : Wire.Hdr) (hh : h.cmd = 3) (l l' : List Byte) (fds : List (Option Fd)) (hl : l.length = l'.length)
    (ht : l.take 40 = l'.take 40) :
    (Wire.sendIovec.go env.snd h l' fds).1 = (Wire.sendIovec.go env.snd h l fds).1 ∧
      List.Forall₂ Near ((Wire.sendIovec.go env.snd h l fds).2.map Ev.sent)
        ((Wire.sendIovec.go env.snd h l' fds).2.map Ev.sent) := by
  unfold Wire.sendIovec.go
  by_cases hn : fds.any Option.isNone = true
  · rw [if_pos hn, if_pos hn]; exact ⟨rfl, .nil⟩
  rw [if_neg hn, if_neg hn]
  have hlen : (h.bytes ++ l').length = (h.bytes ++ l).length := by simp [hl]
  dsimp only
  rw [hlen]
  cases env.snd (h.bytes ++ l).length with
  | error e => exact ⟨rfl, .nil⟩
  | ok n =>
    refine ⟨rfl, .cons ?_ .nil⟩
    have hb := h.bytes_length
    have take : ∀ k, k ≤ 56 → (h.bytes ++ l).take k = (h.bytes ++ l').take k := by
      intro k hk
      rw [List.take_append, List.take_append, hb]
      have : l.take (k - 16) = l'.take (k - 16) := by
        have := congrArg (List.take (k - 16)) ht
        rwa [List.take_take, List.take_take, Nat.min_eq_left (by omega)] at this
      rw [this]
    by_cases hs : n ≤ 56
    · rw [take n hs]; exact .same _
    · refine .sent _ _ rfl ?_ ?_ ?_
      · simp only [List.length_take, hlen]
      · dsimp only
        rw [List.take_take, List.take_take, Nat.min_eq_left (by omega)]
        exact take 56 le_rfl
      · dsimp only
        have : (h.bytes ++ l).take n = h.bytes ++ l.take (n - 16) := by
          rw [List.take_append, hb, List.take_of_length_le (by omega)]
        rw [this]
        change leAt (h.bytes ++ l.take (n - 16)) 2 2 = 3
        rw [leAt_append_left _ _ _ _ (by omega)]
        unfold Wire.Hdr.bytes
        rw [hh]
        rw [List.append_assoc, List.append_assoc, leAt_field (enc 2 h.id) _ 2 3 2 (enc_length _ _) (by decide)]

omit he hf in
theorem finish_close (k : Nat) (m : Msg) (d d' : Done) (h : Akin m.hdr.cmd d d') :
    Close (finish cfg env k m d) (finish cfg (env.soiled f) k m d') := by
  obtain ⟨h1, h2, h3, h4, h5, h6⟩ := h
  have key : Close (doReply cfg env k d.st m.hdr d.out d.outFds (replyErr d.res))
      (doReply cfg (env.soiled f) k d'.st m.hdr d'.out d'.outFds (replyErr d'.res)) := by
    rw [h1, h2, h3]
    rcases h6 with h6 | ⟨l, l', hc, e1, e2, hl, ht⟩
    · rw [h6]; exact .of_eq rfl
    rw [e1, e2]
    unfold doReply
    by_cases hn : m.hdr.noReply = true
    · rw [if_pos hn, if_pos hn]; exact .of_eq rfl
    rw [if_neg hn, if_neg hn]
    have hgo := go_near env (Wire.mkHdr m.hdr.id m.hdr.cmd true l.length (replyErr d.res % U32)) hc l l' d.outFds hl ht
    dsimp only
    unfold Wire.reply Wire.sendIovec
    dsimp only [Wire.Body.len]
    rw [← hl]
    change Close (match (Wire.sendIovec.go env.snd _ l d.outFds).1 with
      | .ok () => _
      | .error e => _) (match (Wire.sendIovec.go env.snd _ l' d.outFds).1 with
      | .ok () => _
      | .error e => _)
    revert hgo
    rw [show (env.soiled f).snd = env.snd from rfl]
    generalize Wire.sendIovec.go env.snd (Wire.mkHdr m.hdr.id m.hdr.cmd true l.length (replyErr d.res % U32)) l d.outFds = x
    generalize Wire.sendIovec.go env.snd (Wire.mkHdr m.hdr.id m.hdr.cmd true l.length (replyErr d.res % U32)) l' d.outFds = y
    obtain ⟨x1, x2⟩ := x
    obtain ⟨y1, y2⟩ := y
    rintro ⟨g1, g2⟩
    dsimp only at g1 g2
    subst g1
    cases y1 with
    | ok u => exact ⟨rfl, rfl, g2⟩
    | error e =>
      dsimp only
      by_cases he : e = ECONNRESET ∨ e = ENOMSG
      · rw [if_pos he, if_pos he]
        exact ⟨rfl, rfl, nears_append g2 (nears _)⟩
      · rw [if_neg he, if_neg he]
        exact ⟨rfl, rfl, g2⟩
  obtain ⟨k1, k2, k3⟩ := key
  unfold finish
  dsimp only
  rw [k2, h4, h5]
  by_cases hfa : (doReply cfg env k d.st m.hdr d.out d.outFds (replyErr d.res)).res.isFault = true
  · rw [if_pos hfa, if_pos hfa]
    exact ⟨k1, rfl, nears_append (nears _) k3⟩
  · rw [if_neg hfa, if_neg hfa]
    exact ⟨k1, rfl, nears_append (nears_append (nears_append (nears _) k3) (nears _)) (nears _)⟩

theorem handle_close (k : Nat) (st : St) (m : Msg) :
    Close (handleRequest cfg env k st m) (handleRequest cfg (env.soiled f) k st m) := by
  have h := exec_akin cfg env f he hf st m
  unfold handleRequest
  dsimp only
  rw [h.res]
  by_cases hfa : (exec cfg env st m).res.isFault = true
  · rw [if_pos hfa, if_pos hfa, h.evs]
    exact ⟨h.st, rfl, nears _⟩
  · rw [if_neg hfa, if_neg hfa]
    exact finish_close cfg env f k m _ _ h

theorem dispatch_close (st : St) (m : Msg) : Close (dispatch cfg env st m) (dispatch cfg (env.soiled f) st m) := by
  have h0 := handle_close cfg env f he hf 0 st m
  have h1 := handle_close cfg env f he hf 1 { st with quiesced := true } m
  unfold dispatch
  by_cases a : shouldExec st.mig m.hdr.cmd = false
  · rw [if_pos a, if_pos a]; exact .of_eq rfl
  rw [if_neg a, if_neg a]
  by_cases b : needsQuiesce cfg st m = true
  · rw [if_pos b, if_pos b]
    dsimp only
    rw [show (env.soiled f).quiesce = env.quiesce from rfl]
    cases env.quiesce 0 with
    | some e =>
      dsimp only
      by_cases c : e = EBUSY
      · rw [if_pos c, if_pos c]; exact .of_eq rfl
      · rw [if_neg c, if_neg c]; exact .of_eq rfl
    | none =>
      exact ⟨by dsimp only; rw [h1.st], h1.res, nears_append (nears _) h1.evs⟩
  · rw [if_neg b, if_neg b]
    exact ⟨by dsimp only; rw [h0.st], h0.res, h0.evs⟩

theorem poll_close (st : St) (i : Wire.In) : Close (poll cfg env st i) (poll cfg (env.soiled f) st i) := by
  unfold poll
  by_cases a : st.pending ≠ .none
  · rw [if_pos a, if_pos a]; exact .of_eq rfl
  rw [if_neg a, if_neg a]
  by_cases b : st.conn = false
  · rw [if_pos b, if_pos b]; exact .of_eq rfl
  rw [if_neg b, if_neg b]
  cases i with
  | again => exact .of_eq rfl
  | lost e l => exact .of_eq rfl
  | failed e l => exact .of_eq rfl
  | bad h fds e => exact .of_eq rfl
  | req h body fds =>
    have := dispatch_close cfg env f he hf st ⟨h, body, fds⟩
    exact ⟨this.st, this.res, .cons (.same _) this.evs⟩

theorem quiesced_close (st : St) (e : Nat) :
    Close (deviceQuiesced cfg env st e) (deviceQuiesced cfg (env.soiled f) st e) := by
  unfold deviceQuiesced
  by_cases a : cfg.hasQuiesce = false ∨ st.pending = .none
  · rw [if_pos a, if_pos a]; exact .of_eq rfl
  rw [if_neg a, if_neg a]
  by_cases b : e = 0
  · dsimp only
    rw [if_pos b, if_pos b]
    cases hp : st.pending with
    | none => exact .of_eq rfl
    | ctxReset => exact .of_eq rfl
    | msg m =>
      have := handle_close cfg env f he hf 0 { st with quiesced := true } m
      rw [hp] at this
      exact ⟨by dsimp only; rw [this.st], this.res, .cons (.same _) this.evs⟩
  · dsimp only
    rw [if_neg b, if_neg b]
    exact .of_eq rfl

end

theorem call_close (cfg : Cfg) (st : St) {op op' : Op} (h : Twin op op') : Close (call cfg st op) (call cfg st op') := by
  cases h with
  | run env f i he hf => exact poll_close cfg env f he hf st i
  | quiesced env f e he hf => exact quiesced_close cfg env f he hf st e
  | transfer env f l he hf => exact .of_eq rfl
  | same op => exact .of_eq rfl

/-- C88, any client: what fresh memory contains changes nothing but the bytes after the echo in replies to DMA_UNMAP.  In
particular it changes no state, no callback and no other reply. -/
theorem C88_confined (cfg : Cfg) (st : St) {ops ops' : List Op} (h : List.Forall₂ Twin ops ops') :
    (run cfg st ops').1 = (run cfg st ops).1 ∧ List.Forall₂ Near (run cfg st ops).2 (run cfg st ops').2 := by
  induction h generalizing st with
  | nil => exact ⟨rfl, .nil⟩
  | cons h1 _ ih =>
    obtain ⟨c1, c2, c3⟩ := call_close cfg st h1
    unfold run
    dsimp only
    rw [c2]
    split_ifs
    · exact ⟨c1, c3⟩
    · rw [c1]
      obtain ⟨i1, i2⟩ := ih (call cfg st _).st
      exact ⟨i1, nears_append c3 (.cons (.same _) i2)⟩

/-! ## A client that asks for non-empty ranges in the page size of the log -/

/-- Not an unmap with dirty bitmap for an empty range, or with another page size than that of the log. -/
def Discreet (st : St) (m : Msg) : Prop :=
  m.hdr.cmd = 3 → leAt m.body 4 4 = 1 →
    leAt m.body 16 8 ≠ 0 ∧ ∀ c, st.dma = some c → c.dirtyPgsize ≠ 0 → leAt m.body 24 8 = c.dirtyPgsize

/-- The request a call executes: the one it receives, or the one that waits for the device. -/
def Op.Discreet (st : St) (op : Op) : Prop :=
  (∀ env h body fds, op = .run env (.req h body fds) → Server.Discreet st ⟨h, body, fds⟩) ∧
  (∀ env e m, op = .quiesced env e → st.pending = .msg m → Server.Discreet st m)

section
variable (cfg : Cfg) (env : Env) (f : Nat → List Byte) (he : Sized env.malloc) (hf : Sized f)
include he hf

theorem exec_blind (st : St) (m : Msg) (hd : Discreet st m) : exec cfg (env.soiled f) st m = exec cfg env st m := by
  by_cases hc : m.hdr.cmd = Wire.CMD_DMA_UNMAP
  case neg =>
    unfold exec
    rw [if_neg hc, if_neg hc, access_soiled, access_soiled]
    rfl
  have hn : ¬ m.hdr.cmd = Wire.CMD_DMA_MAP := by rw [hc]; decide
  unfold exec
  rw [if_neg hn, if_neg hn, if_pos hc, if_pos hc]
  cases hs : st.dma with
  | none => rfl
  | some c =>
    have hh : Dma.handleUnmap (env.soiled f).alloc cfg.dma.hasUnreg c (leAt m.body 8 8) (leAt m.body 16 8)
        (unmapKind (env.soiled f) m.body) =
        Dma.handleUnmap env.alloc cfg.dma.hasUnreg c (leAt m.body 8 8) (leAt m.body 16 8) (unmapKind env m.body) := by
      unfold unmapKind
      by_cases h1 : leAt m.body 4 4 = UNMAP_ALL
      · rw [if_pos h1, if_pos h1]; rfl
      rw [if_neg h1, if_neg h1]
      by_cases h2 : leAt m.body 4 4 = UNMAP_DIRTY
      · rw [if_pos h2, if_pos h2]
        obtain ⟨d1, d2⟩ := hd hc h2
        exact Dma.handleUnmap_blind _ _ _ _ _ _ _ _ _ _ (hf _) (he _) d1 (d2 c hs)
      · rw [if_neg h2, if_neg h2]; rfl
    dsimp only
    unfold dmaUnmap
    dsimp only
    rw [hh]

theorem handle_blind (k : Nat) (st : St) (m : Msg) (hd : Discreet st m) :
    handleRequest cfg (env.soiled f) k st m = handleRequest cfg env k st m := by
  unfold handleRequest
  rw [exec_blind cfg env f he hf st m hd]
  rfl

theorem dispatch_blind (st : St) (m : Msg) (hd : Discreet st m) :
    dispatch cfg (env.soiled f) st m = dispatch cfg env st m := by
  unfold dispatch
  rw [handle_blind cfg env f he hf 0 st m hd, handle_blind cfg env f he hf 1 { st with quiesced := true } m hd]
  rfl

end

theorem call_blind (cfg : Cfg) (st : St) {op op' : Op} (h : Twin op op') (hd : op.Discreet st) :
    call cfg st op' = call cfg st op := by
  cases h with
  | run env f i he hf =>
    cases i with
    | req h body fds =>
      have := dispatch_blind cfg env f he hf st ⟨h, body, fds⟩ (hd.1 _ _ _ _ rfl)
      simp only [call, poll, this]
    | _ => rfl
  | quiesced env f e he hf =>
    cases hp : st.pending with
    | msg m =>
      have := handle_blind cfg env f he hf 0 { st with quiesced := true } m (hd.2 _ _ _ rfl hp)
      rw [hp] at this
      simp only [call, deviceQuiesced, hp, this]
    | _ => simp only [call, deviceQuiesced, hp] <;> rfl
  | transfer env f l he hf => rfl
  | same op => rfl

/-- C88, a client that queries non-empty ranges in the page size of the log: the contents of fresh memory change nothing
at all. -/
theorem C88_discreet (cfg : Cfg) (st : St) {ops ops' : List Op} (h : List.Forall₂ Twin ops ops')
    (hd : ∀ pre op post, ops = pre ++ op :: post → op.Discreet (run cfg st pre).1) :
    run cfg st ops' = run cfg st ops := by
  induction h generalizing st with
  | nil => rfl
  | @cons op op' ops ops' h1 _ ih =>
    have hc := call_blind cfg st h1 (hd [] op ops rfl)
    unfold run
    dsimp only
    rw [hc]
    by_cases hfa : (call cfg st op).res.isFault = true
    · rw [if_pos hfa, if_pos hfa]
    rw [if_neg hfa, if_neg hfa, ih (call cfg st op).st]
    intro pre op2 post hp
    have := hd (op :: pre) op2 post (by rw [hp]; rfl)
    unfold run at this
    dsimp only at this
    rw [if_neg hfa] at this
    exact this

/-! ## The other clients -/

/-- C88, disclosure: for every region of size 0 (a client may register one), an unmap with dirty bitmap succeeds and its
reply carries as many bytes of the server's memory as the client asked for, whether or not dirty pages are logged. -/
theorem C88_empty {cfg : Cfg} {mig : Bool} {x : Nat × Nat} {pci : Pci.Pci} {ops : List Op}
    (h : Talk cfg Replied mig x pci ops) {env : Env} {m : Msg}
    (hn : Next cfg env (run cfg (init cfg mig (some x) pci) ops).1 m) (hcmd : m.hdr.cmd = 3)
    (h1 : 40 ≤ m.body.length) (hf : leAt m.body 4 4 = 1) (hb : ¬ BadUnmap m.body) (hz : leAt m.body 16 8 = 0)
    (hhint : env.hint < x.1) :
    let t := account cfg Tbl.empty (init cfg mig (some x) pci) ops
    let o := call cfg (run cfg (init cfg mig (some x) pci) ops).1 (.run env (.req m.hdr m.body m.fds))
    (t (leAt m.body 8 8) 0).isSome → Answered m 0 (m.body.take 40 ++ env.malloc (leAt m.body 32 8)) o := by
  intro t o hs
  obtain ⟨c, hd, hi, hr⟩ := h.ledger
  obtain ⟨⟨dops, _, g2⟩, _⟩ := run_reached cfg mig (some x) pci ops (fun op ho => (h.each op ho).2.1)
  rw [hd] at g2
  have hmax : c.maxRegions = x.1 := by
    rw [Option.some.inj g2]; exact (Dma.max_run cfg.dma dops (Dma.create x.1 x.2)).1
  generalize hst : (run cfg (init cfg mig (some x) pci) ops).1 = st at hd hn
  have ho : o = call cfg st (.run env (.req m.hdr m.body m.fds)) := by rw [← hst]
  change Dma.Represents c t at hr
  have hd' : (ready cfg st m).dma = some c := hd
  have hex := exec_unmap (cfg := cfg) (env := env) hd' hcmd
  have hk : unmapKind env m.body = .getDirty (leAt m.body 24 8) (leAt m.body 32 8) (env.malloc (leAt m.body 32 8)) env.hint := by
    unfold unmapKind; rw [hf]; rfl
  obtain ⟨_, v1, _⟩ := unmap_valid (cfg := cfg) (env := env) (st := ready cfg st m) (c := c) (m := m) (by omega)
    (fun _ => h1) hb
  obtain ⟨u1, _⟩ := C02_at hi hr cfg.dma.hasUnreg (leAt m.body 8 8) 0 (some (env.malloc (leAt m.body 32 8)))
  have u1 := u1 hs
  have hget : Dma.dirtyPageGet c env.hint (leAt m.body 8 8) 0 (leAt m.body 24 8) (leAt m.body 32 8)
      (env.malloc (leAt m.body 32 8)) = (c, .ret0) := by
    unfold Dma.dirtyPageGet
    rw [Dma.addrToSgl_none c env.hint _ false (by omega)]
  have hh : Dma.handleUnmap env.alloc cfg.dma.hasUnreg c (leAt m.body 8 8) (leAt m.body 16 8) (unmapKind env m.body) =
      Dma.unmapTail cfg.dma.hasUnreg c (leAt m.body 8 8) 0 (some (env.malloc (leAt m.body 32 8))) := by
    rw [hk, hn.fair.alloc, hz]
    unfold Dma.handleUnmap
    rw [if_neg (by simp)]
    dsimp only
    rw [hget]
  rw [hh] at v1
  generalize Dma.unmapTail cfg.dma.hasUnreg c (leAt m.body 8 8) 0 (some (env.malloc (leAt m.body 32 8))) = y at u1 v1
  obtain ⟨c', r, ev⟩ := y
  dsimp only at u1
  subst u1
  obtain ⟨e1, e2, _⟩ := v1 c' _ ev rfl
  obtain ⟨l', hsv⟩ := hn.served h.tbl (by rw [hex, e1]; rfl)
  have hout := hsv.out
  rw [hex, e2] at hout
  cases hout
  have hre := hsv.reply
  rw [hex, e1] at hre
  rw [ho]
  exact hre

section
open Demo

/-- Fresh memory with a recognisable content. -/
def secret : Nat → List Byte := fun n => List.replicate n 0xa5#8

theorem secret_sized : Sized secret := fun n => by simp [secret]
theorem env_sized : Sized env.malloc := fun n => by simp [env]

/-- Register a region of size 0 at 0x5000. -/
def mapNone : List Byte := enc 4 32 ++ enc 4 3 ++ enc 8 0 ++ enc 8 0x5000 ++ enc 8 0

/-- That region. -/
def nothing : List Op :=
  [.attach (.ok { maxFds := 8, maxXfer := 1048576, pgsize := 4096 }), .run env (req 1 2 0 mapNone [])]

theorem nothing_talk : Talk cfg Replied true (8, 2 ^ 40) pci nothing := by
  refine ⟨irq_ok, table_ok, ?_, ⟨by decide +kernel, by decide +kernel, trivial⟩⟩
  have h1 : Replied (req 1 2 0 mapNone []) :=
    replied_req _ _ _ _ (by decide) (by decide) (by decide) (by decide) (by decide)
  intro op hop
  simp only [nothing, List.mem_cons, List.not_mem_nil, or_false] at hop
  rcases hop with rfl | rfl
  · exact ⟨trivial, (fun e he => by cases he), trivial⟩
  · exact ⟨⟨env_fair, h1.1⟩, (fun e' he => by cases he; exact env_ok rfl), h1⟩

/-- Whatever 64 KiB of the heap contain, the client gets it; dirty pages were never logged. -/
example (f : Nat → List Byte) :
    let m : Msg := ⟨hdr 7 3 0 40, unmapDirty 0x5000 0 65536, []⟩
    Answered m 0 (unmapDirty 0x5000 0 65536 ++ f 65536)
      (call cfg (run cfg (init cfg true (some (8, 2 ^ 40)) pci) nothing).1
        (.run (env.soiled f) (.req m.hdr m.body m.fds))) := by
  intro m
  have hn : Next cfg (env.soiled f) (run cfg (init cfg true (some (8, 2 ^ 40)) pci) nothing).1 m :=
    next_req (c := cfg) (e := env.soiled f) (st := (run cfg (init cfg true (some (8, 2 ^ 40)) pci) nothing).1)
      (fair_env rfl rfl rfl (fun _ _ h => by cases h)) rfl rfl ⟨by decide +kernel, by decide +kernel⟩
      (by decide +kernel) 7 3 (unmapDirty 0x5000 0 65536) [] (by decide) (by decide) (by decide) (by decide) (by decide)
  have := C88_empty nothing_talk hn rfl (by decide) (by decide) (by unfold BadUnmap; decide) (by decide)
    (show 0 < 8 by decide) (by decide +kernel)
  rw [show leAt m.body 32 8 = 65536 from by decide] at this
  exact this

/-- Two runs with different heaps, and a client that unmaps a region of 2 MiB in the page size of the log. -/
example :
    let last (e : Env) : Op := .run e (req 7 3 0 (unmapDirty 0x1000000 0x200000 64) [])
    run cfg (init cfg true (some (8, 2 ^ 40)) pci) (written ++ [last (env.soiled secret)]) =
      run cfg (init cfg true (some (8, 2 ^ 40)) pci) (written ++ [last env]) := by
  intro last
  refine C88_discreet cfg _ (List.rel_append (List.forall₂_same.mpr fun op _ => .same op)
    (.cons (.run env secret _ env_sized secret_sized) .nil)) ?_
  intro pre op post hp
  have key : ∀ pre op post, written ++ [last env] = pre ++ op :: post →
      op = last env ∧ pre = written ∨ op ∈ written := by
    intro pre op post h
    rcases List.append_eq_append_iff.mp h with ⟨a, h1, h2⟩ | ⟨a, h1, h2⟩
    · cases a with
      | nil => simp at h1 h2; exact .inl ⟨h2.1.symm, h1⟩
      | cons x a => simp at h2
    · cases a with
      | nil => simp at h1 h2; exact .inl ⟨h2.1, h1.symm⟩
      | cons x a =>
        simp only [List.cons_append, List.cons.injEq] at h2
        exact .inr (by rw [h1, h2.1]; simp)
  rcases key pre op post hp with ⟨rfl, rfl⟩ | hm
  · refine ⟨fun e h b f hop => ?_, fun e h m hop => by cases hop⟩
    cases hop
    intro _ _
    refine ⟨by decide, fun c hc _ => ?_⟩
    obtain ⟨c', hc', h1, _⟩ := afterWrites_dma
    rw [hc'] at hc
    cases hc
    rw [h1]
    decide
  · simp only [written, List.mem_cons, List.not_mem_nil, or_false] at hm
    rcases hm with rfl | rfl | rfl | rfl
    all_goals refine ⟨fun e h b f hop => ?_, fun e h m hop => by cases hop⟩
    all_goals (cases hop; try (intro h1; exact absurd h1 (by decide)))

/-- Unmap a range with its dirty bitmap, of `n` bytes, in pages of size `pg`. -/
def unmapPaged (addr size pg n : Nat) : List Byte :=
  enc 4 (40 + n) ++ enc 4 1 ++ enc 8 addr ++ enc 8 size ++ enc 8 pg ++ enc 8 n

/-- Dirty pages are logged in units of 4 KiB, the client asks for a region in units of 8 KiB. -/
def mixed (e : Env) : List Op :=
  [.attach (.ok { maxFds := 8, maxXfer := 1048576, pgsize := 4096 }), .run env (req 1 2 0 (mapBody 0x1000000) [5]),
   .run env (req 2 16 0 logBody []), .run e (req 3 3 0 (unmapPaged 0x1000000 0x200000 8192 32) [])]

/-- The bitmap in the last message of a run: what follows the header and the echo of the request. -/
def lastBitmap (l : List Ev) : List Byte := ((sents l).getLast?.elim [] (·.bytes)).drop 56

/-- C88, disclosure: the page size of the client differs from that of the log, no page is dirty, and the bitmap in the
reply is what the memory contained. -/
theorem C88_mixed :
    lastBitmap (run cfg (init cfg true (some (8, 2 ^ 40)) pci) (mixed (env.soiled secret))).2 = secret 32 ∧
    lastBitmap (run cfg (init cfg true (some (8, 2 ^ 40)) pci) (mixed env)).2 = List.replicate 32 0#8 := by
  decide +kernel

end

end Verif.Server
