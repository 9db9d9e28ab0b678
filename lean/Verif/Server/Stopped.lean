import Verif.Server.Guard
import Verif.Server.Migrate
import Verif.Server.Granted

/-!
# C120: what a device hears in each state of a migration

The migration state decides which callbacks a client can cause.  A device that was stopped to be copied is asked for its data
and for the next state, and for nothing else as long as the client stays. -/

namespace Verif.Server
open Verif
open Verif.Dma (Fd)

/-! ## The table -/

/-- The callbacks a request may cause in the state `s`: `none` without migration, 1 stopped, 2 running, 3 stop-and-copy,
4 resuming, 6 pre-copy (`include/vfio-user.h:281-289`). -/
def Suits (s : Option Nat) : Call → Prop
  | .quiesce _ => True
  | .migState _ => s ≠ none
  | .migData (.read _ _) => s = some 3 ∨ s = some 6
  | .migData (.write _) => s = some 4
  | .region _ _ _ _ => s ≠ some 3
  | .reset .flr => s ≠ some 3
  | .reset .lostConn => False
  | _ => s ≠ some 1 ∧ s ≠ some 3

/-- The callbacks among the events suit the state, or belong to a client that is gone. -/
def Suited (s : Option Nat) (l : List Ev) : Prop := ∀ c ∈ calls l, Suits s c ∨ Farewell c ∧ Ev.detach ∈ l

section
variable {s : Option Nat}

theorem Suited.nil : Suited s [] := fun c h => by cases h

theorem Suited.append {a b : List Ev} (ha : Suited s a) (hb : Suited s b) : Suited s (a ++ b) := by
  intro c hc
  rw [calls_append] at hc
  rcases List.mem_append.mp hc with h | h
  · exact (ha c h).imp id (And.imp id fun h => List.mem_append_left _ h)
  · exact (hb c h).imp id (And.imp id fun h => List.mem_append_right _ h)

theorem Suited.cons {e : Ev} (he : ∀ c q, e ≠ .call c q) {l : List Ev} (h : Suited s l) : Suited s (e :: l) := by
  intro c hc
  rw [calls_cons he] at hc
  exact (h c hc).imp id (And.imp id fun h => List.mem_cons_of_mem _ h)

theorem suited_of_caused {l : List Ev} (h : Caused none l) : Suited s l := by
  intro c hc
  rcases h c hc with ⟨r, rfl⟩ | ⟨m, h, _⟩ | h
  · exact .inl trivial
  · cases h
  · exact .inr h

end

section
variable {cfg : Cfg} {p : Pci.Pci} (hsz : ∀ r ∈ cfg.tbl, r.size < U32) (hl : LayoutOk cfg.tbl p)
include hsz

/-- No access while the device is copied. -/
theorem access_quiet {env : Env} {st : St} {w : Bool} {body : List Byte} {fds : List Fd} (hs : st.mig = some 3) :
    (access cfg env st w body fds).evs = [] := by
  have hv : Region.validAccess cfg.tbl (stopCopy st.mig) w body = false := by
    cases hv : Region.validAccess cfg.tbl (stopCopy st.mig) w body with
    | false => rfl
    | true =>
      obtain ⟨r, ho⟩ := (Region.validAccess_iff hsz _ _ _).1 hv
      have := ho.state
      rw [hs] at this
      cases this
  unfold access
  dsimp only [Done.pure]
  unfold Region.handleAccess
  by_cases h0 : body = []
  · rw [if_pos h0]; rfl
  rw [if_neg h0, if_pos hv]
  rfl

include hl

theorem exec_suits {env : Env} {st : St} {m : Msg} (hp : layout st.pci = layout p) (he : shouldExec st.mig m.hdr.cmd = true) :
    ∀ c ∈ calls (exec cfg env st m).evs, Suits st.mig c := by
  intro c hc
  have hpr := exec_prompts hsz hl hp c hc
  have hgate : m.hdr.cmd ≠ 9 → m.hdr.cmd ≠ 10 → m.hdr.cmd ≠ 16 → m.hdr.cmd ≠ 17 → st.mig ≠ some 1 ∧ st.mig ≠ some 3 := by
    intro h1 h2 h3 h4
    have ha : allowedStopped m.hdr.cmd = false := by
      simp [allowedStopped, Wire.CMD_REGION_READ, Wire.CMD_REGION_WRITE, Wire.CMD_FEATURE, Wire.CMD_MIG_READ, h1, h2, h3, h4]
    unfold shouldExec at he
    rw [ha] at he
    constructor <;> intro h <;> rw [h] at he <;> exact absurd he (by decide)
  have hacc : m.hdr.cmd = 9 ∨ m.hdr.cmd = 10 → st.mig ≠ some 3 := by
    intro hcmd hs
    have : (exec cfg env st m).evs = [] := by
      rcases hcmd with h | h
      · unfold exec
        simp only [h]
        exact access_quiet hsz hs
      · unfold exec
        simp only [h]
        exact access_quiet hsz hs
    rw [this] at hc
    cases hc
  cases c with
  | quiesce r => trivial
  | dmaRegister i =>
    obtain ⟨h, _⟩ := hpr
    exact hgate (by omega) (by omega) (by omega) (by omega)
  | dmaUnregister i =>
    obtain ⟨h, _⟩ := hpr
    exact hgate (by omega) (by omega) (by omega) (by omega)
  | reset r =>
    cases r with
    | device =>
      have h : m.hdr.cmd = 13 := hpr
      exact hgate (by omega) (by omega) (by omega) (by omega)
    | flr => exact hacc (.inr hpr.1)
    | lostConn => exact hpr.elim
  | migState v =>
    intro hs
    have h : m.hdr.cmd = 16 := hpr.1
    unfold exec at hc
    simp only [h] at hc
    have hc : Call.migState v ∈ calls ((Mig.handleFeature env.feat { mig := st.mig, dma := st.dma } m.body).2.2.flatMap
      (ofVfu st.quiesced)) := hc
    obtain ⟨x, hx, _⟩ := calls_flatMap hc
    rw [hs] at hx
    unfold Mig.handleFeature at hx
    dsimp only at hx
    split_ifs at hx <;> cases hx
  | migData e =>
    cases e with
    | read n r =>
      have h : m.hdr.cmd = 17 := hpr.1
      unfold exec at hc
      simp only [h] at hc
      obtain ⟨q, hq⟩ := mem_calls.mp hc
      obtain ⟨x, hx, _⟩ := List.mem_map.mp hq
      have ha : Mig.ReadAllowed st.mig st.maxXfer m.body := by
        by_contra hn
        rw [Mig.C23_read_refused _ _ _ _ _ hn] at hx
        cases hx
      obtain ⟨_, ⟨a, ha, hs⟩, _⟩ := ha
      have := (Mig.saving_num a.num).1 ⟨a, ha, rfl⟩
      rw [hs]
      rcases this with h | h <;> rw [h]
      · exact .inr rfl
      · exact .inl rfl
    | write d =>
      have h : m.hdr.cmd = 18 := hpr.1
      unfold exec at hc
      simp only [h] at hc
      obtain ⟨q, hq⟩ := mem_calls.mp hc
      obtain ⟨x, hx, _⟩ := List.mem_map.mp hq
      have ha : Mig.WriteAllowed st.mig st.maxXfer m.body := by
        by_contra hn
        rw [Mig.C23_write_refused _ _ _ _ hn] at hx
        cases hx
      exact ha.1
  | region r off buf w =>
    refine hacc ?_
    have h := hpr.1
    cases w
    · exact .inl h
    · exact .inr h
  | irqState i st n k =>
    obtain ⟨h, _⟩ := hpr
    exact hgate (by omega) (by omega) (by omega) (by omega)

theorem suited_handleRequest (hi : cfg.irq.Ok) {dma : Option (Nat × Nat)} (env : Env) (ho : env.os.Ok) (k : Nat) {st : St}
    (h : Core cfg dma p st) {m : Msg} (he : shouldExec st.mig m.hdr.cmd = true) :
    Suited st.mig (handleRequest cfg env k st m).evs := by
  have hx : Suited st.mig (exec cfg env st m).evs := fun c hc => .inl (exec_suits hsz hl h.pci he c hc)
  have ht := (stable_reached cfg dma).exec ho h.tables m
  unfold handleRequest
  dsimp only
  generalize exec cfg env st m = d at hx ht
  have hx' : Suited st.mig (.exec m.hdr :: d.evs) := .cons (by simp) hx
  by_cases hf : d.res.isFault = true
  · rw [if_pos hf]; exact hx'
  rw [if_neg hf]
  have h1 := hx'.append (suited_of_caused (caused_doReply hi env k ht m.hdr d.out d.outFds (replyErr d.res)))
  unfold finish
  dsimp only
  by_cases hf : (doReply cfg env k d.st m.hdr d.out d.outFds (replyErr d.res)).res.isFault = true
  · rw [if_pos hf]; exact h1
  · rw [if_neg hf]; exact (h1.append (suited_of_caused (caused_closes _))).append (suited_of_caused caused_freed)

/-- The request that waits for the device is one the state permits. -/
def Permits (st : St) : Prop := ∀ m, st.pending = .msg m → shouldExec st.mig m.hdr.cmd = true

omit hsz hl in
theorem permits_idle {st st' : St} (h0 : st.pending = .none) (h : Keeps st.pending st'.pending) : Permits st' := by
  intro m hm
  rcases h with e | e
  · rw [e, h0] at hm; cases hm
  · rw [e] at hm; cases hm

theorem suited_call (hi : cfg.irq.Ok) {dma : Option (Nat × Nat)} {st : St} (h : Core cfg dma p st) (hw : Permits st) (op : Op)
    (ho : op.OSOk) : Suited st.mig (call cfg st op).evs ∧ Permits (call cfg st op).st := by
  have ht := h.tables
  have hr : ∀ {l : List Ev}, Caused none l → Suited st.mig l := fun h => suited_of_caused h
  cases op with
  | run env i =>
    have hos := ho env rfl
    show Suited _ (poll cfg env st i).evs ∧ Permits (poll cfg env st i).st
    unfold poll
    by_cases h1 : st.pending ≠ .none
    · rw [if_pos h1]; exact ⟨.nil, hw⟩
    rw [if_neg h1]
    have h0 : st.pending = .none := not_not.mp h1
    by_cases h2 : st.conn = false
    · rw [if_pos h2]; exact ⟨.nil, hw⟩
    rw [if_neg h2]
    cases i with
    | again => exact ⟨.nil, hw⟩
    | lost e leak => exact ⟨.cons (by simp) (hr (caused_resetCtx hi env 0 ht)), permits_idle h0 (resetCtx_keeps ..)⟩
    | failed e leak => exact ⟨.cons (by simp) .nil, hw⟩
    | bad hd fds e => exact ⟨.cons (by simp) (hr (caused_refuse hi env 0 ht hd fds e)), permits_idle h0 (refuse_keeps ..)⟩
    | req hd body fds =>
      dsimp only
      suffices g : Suited st.mig (dispatch cfg env st ⟨hd, body, fds⟩).evs ∧ Permits (dispatch cfg env st ⟨hd, body, fds⟩).st from
        ⟨.cons (by simp) g.1, g.2⟩
      unfold dispatch
      dsimp only
      by_cases h3 : shouldExec st.mig hd.cmd = false
      · rw [if_pos h3]; exact ⟨hr (caused_refuse hi env 0 ht _ _ _), permits_idle h0 (refuse_keeps ..)⟩
      rw [if_neg h3]
      have h3 : shouldExec st.mig hd.cmd = true := by simpa using h3
      by_cases h4 : needsQuiesce cfg st ⟨hd, body, fds⟩ = true
      · rw [if_pos h4]
        have hb : Suited st.mig (bracket .quiesce (.quiesce (env.quiesce 0)) st.quiesced) := hr (caused_quiesce _ _)
        revert hb
        generalize bracket .quiesce (.quiesce (env.quiesce 0)) st.quiesced = br
        intro hb
        cases env.quiesce 0 with
        | none =>
          refine ⟨hb.append (suited_handleRequest hsz hl hi env hos 1 (st := { st with quiesced := true }) ⟨ht, h.mig, h.pci⟩ h3), ?_⟩
          exact permits_idle h0 (handleRequest_keeps cfg env 1 { st with quiesced := true } _)
        | some e =>
          dsimp only
          by_cases he : e = EBUSY
          · rw [if_pos he]
            refine ⟨hb, fun m hm' => ?_⟩
            cases hm'
            exact h3
          · rw [if_neg he]; exact ⟨hb.append (hr (caused_refuse hi env 1 ht _ _ _)), permits_idle h0 (refuse_keeps ..)⟩
      · rw [if_neg h4]
        exact ⟨suited_handleRequest hsz hl hi env hos 0 h h3, permits_idle h0 (handleRequest_keeps cfg env 0 st _)⟩
  | quiesced env e =>
    have ho := ho env rfl
    show Suited _ (deviceQuiesced cfg env st e).evs ∧ Permits (deviceQuiesced cfg env st e).st
    unfold deviceQuiesced
    by_cases h1 : cfg.hasQuiesce = false ∨ st.pending = .none
    · rw [if_pos h1]; exact ⟨.nil, hw⟩
    rw [if_neg h1]
    dsimp only
    refine ⟨.cons (by simp) ?_, fun m hm => by cases hm⟩
    by_cases he : e = 0
    · rw [if_pos he]
      cases hpd : st.pending with
      | none => exact .nil
      | msg m =>
        have := suited_handleRequest hsz hl hi env ho 0 (st := { st with quiesced := true }) ⟨ht, h.mig, h.pci⟩ (hw m hpd)
        simpa only [hpd] using this
      | ctxReset =>
        have := suited_of_caused (s := st.mig) (caused_resetQuiesced (cfg := cfg) (s := none) hi env (st := { st with quiesced := true }) ht)
        simpa only [hpd] using this
    · rw [if_neg he]
      cases st.pending with
      | none => exact .nil
      | msg m => exact hr ((caused_closes _).append caused_freed)
      | ctxReset => exact .nil
  | transfer env lost =>
    show Suited _ (transfer cfg env st lost).evs ∧ Permits (transfer cfg env st lost).st
    unfold transfer
    by_cases h1 : st.pending ≠ .none
    · rw [if_pos h1]; exact ⟨.nil, hw⟩
    rw [if_neg h1]
    by_cases h : lost = true ∧ st.conn = true
    · rw [if_pos h]; exact ⟨hr (caused_resetCtx hi env 0 ht), permits_idle (not_not.mp h1) (resetCtx_keeps ..)⟩
    · rw [if_neg h]; exact ⟨.nil, hw⟩
  | attach n =>
    show Suited _ (attach st n).evs ∧ Permits (attach st n).st
    unfold attach
    by_cases h : st.conn = true
    · rw [if_pos h]; exact ⟨.nil, hw⟩
    rw [if_neg h]
    cases n <;> exact ⟨.nil, hw⟩
  | config f => exact ⟨.nil, hw⟩
  | mark sgl =>
    simp only [call]
    cases st.dma with
    | none => exact ⟨.nil, hw⟩
    | some c => dsimp only; cases Dma.sglMark c sgl <;> exact ⟨.nil, hw⟩
  | trigger wr sub => exact ⟨hr (.silent (calls_ofIrq _ (trigger_state wr st.irqs sub))), hw⟩

theorem permits_run (hi : cfg.irq.Ok) {dma : Option (Nat × Nat)} (ops : List Op) : ∀ {st : St}, Core cfg dma p st → Permits st →
    (∀ o ∈ ops, o.OSOk) → Permits (run cfg st ops).1 := by
  induction ops with
  | nil => exact fun _ h _ => h
  | cons op ops ih =>
    intro st hc hw ho
    have h1 := (suited_call hsz hl hi hc hw op (ho op (by simp))).2
    have h2 := (core_kept cfg dma p).call hc op (ho op (by simp))
    unfold run
    dsimp only
    by_cases hf : (call cfg st op).res.isFault = true
    · rw [if_pos hf]; exact h1
    · rw [if_neg hf]; exact ih h2 h1 fun o h => ho o (by simp [h])

/-- C120: in every history, each callback suits the migration state the device is in, or takes down what a client left, in the
call that gives up its connection. -/
theorem C120_suits (hi : cfg.irq.Ok) (mig : Bool) (dma : Option (Nat × Nat)) (pre : List Op) (op : Op)
    (ho : ∀ o ∈ pre ++ [op], o.OSOk) :
    ∀ c ∈ calls (call cfg (run cfg (init cfg mig dma p) pre).1 op).evs,
      Suits (run cfg (init cfg mig dma p) pre).1.mig c ∨
      Farewell c ∧ Ev.detach ∈ (call cfg (run cfg (init cfg mig dma p) pre).1 op).evs := by
  have h1 := (core_kept cfg dma p).run pre (core_init cfg mig dma p) fun o h => ho o (by simp [h])
  have h2 := permits_run hsz hl hi pre (core_init cfg mig dma p) (fun m hm => by cases hm) fun o h => ho o (by simp [h])
  exact (suited_call hsz hl hi h1 h2 op (ho op (by simp))).1

/-- C120: a device that is being copied hears only that it shall quiesce, give data, and change its state, as long as the client
stays. -/
theorem C120_copied (hi : cfg.irq.Ok) (mig : Bool) (dma : Option (Nat × Nat)) (pre : List Op) (op : Op)
    (ho : ∀ o ∈ pre ++ [op], o.OSOk) (hs : (run cfg (init cfg mig dma p) pre).1.mig = some 3)
    (hd : Ev.detach ∉ (call cfg (run cfg (init cfg mig dma p) pre).1 op).evs) :
    ∀ c ∈ calls (call cfg (run cfg (init cfg mig dma p) pre).1 op).evs,
      (∃ r, c = .quiesce r) ∨ (∃ n r, c = .migData (.read n r)) ∨ ∃ v, c = .migState v := by
  intro c hc
  rcases C120_suits hsz hl hi mig dma pre op ho c hc with h | h
  · rw [hs] at h
    cases c with
    | quiesce r => exact .inl ⟨r, rfl⟩
    | migState v => exact .inr (.inr ⟨v, rfl⟩)
    | migData e =>
      cases e with
      | read n r => exact .inr (.inl ⟨n, r, rfl⟩)
      | write d => cases h
    | reset r => cases r <;> first | exact absurd rfl h.2 | exact absurd rfl h | exact h.elim
    | dmaRegister i => exact absurd rfl h.2
    | dmaUnregister i => exact absurd rfl h.2
    | region r o b w => exact absurd rfl h
    | irqState i s n k => exact absurd rfl h.2
  · exact absurd h.2 hd

end

section
open Demo

/-- A client tries everything: map a range, mask an interrupt, reset the device, write BAR 0, reset a function, ask for data and
give some. -/
def everything : List Op :=
  [mapRange 0x1000 0x1000, .run env (req 3 8 0 (enc 4 20 ++ enc 4 9 ++ enc 4 2 ++ enc 4 1 ++ enc 4 1) []),
    .run env (req 4 13 0 [] []), .run env (req 5 10 0 writeBody []), .run env (req 6 10 0 (cfgBody 0x84 (enc 2 0x8000)) []),
    .run three (req 7 17 0 (wantBody 16) []), .run three (req 8 18 0 (giveBody [1#8, 2#8, 3#8]) [])]

def entered (ss : List Nat) : List Op :=
  .attach (.ok ⟨8, 1048576, 4096, false⟩) :: ss.map fun s => .run env (req 2 16 0 (stateBody s) [])

/-- What the device hears of each of these in the state it was put in. -/
def heardIn (ss : List Nat) : List (List Call) :=
  everything.map fun op => (calls (call fullDev (run fullDev (init fullDev true (some (8, 2 ^ 40)) Pci.ex8) (entered ss)).1 op).evs).filter
    fun c => match c with | .quiesce _ => false | _ => true

/-- Copied: only the request for data is heard. -/
example : heardIn [3] = [[], [], [], [], [], [.migData (.read 16 16)], []] := by decide +kernel

/-- Stopped: accesses are heard too, and a function level reset among them. -/
example : heardIn [1] = [[], [], [], [.region 0 8 (enc 4 0xcafe) true], [.reset .flr], [], []] := by decide +kernel

/-- Resuming, pre-copy and running. -/
example : (heardIn [4]).map List.length = [1, 1, 1, 1, 1, 0, 1] ∧ (heardIn [6]).map List.length = [1, 1, 1, 1, 1, 1, 0] ∧
    (heardIn []).map List.length = [1, 1, 1, 1, 1, 0, 0] := by decide +kernel

theorem entered_ok (ss : List Nat) (op : Op) (h : op.OSOk) : ∀ o ∈ entered ss ++ [op], o.OSOk := by
  intro o ho
  simp only [entered, List.cons_append, List.mem_cons, List.mem_append, List.mem_map, List.not_mem_nil, or_false] at ho
  rcases ho with rfl | ⟨s, _, rfl⟩ | rfl
  · exact fun _ h => by cases h
  · exact fun _ h => by cases h; exact os_ok
  · exact h

example : ∀ c ∈ calls (call fullDev (run fullDev (init fullDev true (some (8, 2 ^ 40)) Pci.ex8) (entered [3])).1
      (.run three (req 7 17 0 (wantBody 16) []))).evs,
    (∃ r, c = .quiesce r) ∨ (∃ n r, c = .migData (.read n r)) ∨ ∃ v, c = .migState v :=
  C120_copied (by decide) full_layout irq_ok true _ _ _ (entered_ok _ _ fun _ h => by cases h; exact os_ok) (by decide +kernel)
    (by decide +kernel)

/-- A client that goes away while the device is copied: its ranges are taken down and the device is reset in that state. -/
theorem C120_farewell :
    (run fullDev (init fullDev true (some (8, 2 ^ 40)) Pci.ex8)
      ([.attach (.ok ⟨8, 1048576, 4096, false⟩), mapRange 0x1000 0x1000, .run env (req 2 16 0 (stateBody 3) [])])).1.mig = some 3 ∧
    calls (call fullDev (run fullDev (init fullDev true (some (8, 2 ^ 40)) Pci.ex8)
      ([.attach (.ok ⟨8, 1048576, 4096, false⟩), mapRange 0x1000 0x1000, .run env (req 2 16 0 (stateBody 3) [])])).1
        (.run env (.lost 0 []))).evs =
      [.quiesce none, .dmaUnregister ⟨0x1000, 0x1000, 0, 0, 0, 4096, ⟨true, true⟩⟩, .reset .lostConn] := by
  decide +kernel

end

end Verif.Server
