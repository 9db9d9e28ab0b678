import Verif.Server.Cause

/-!
# C106: where the debug build stops the device

Built with DEBUG, `vfu_addr_to_sgl`, `vfu_sgl_get`, `vfu_sgl_mark_dirty` and `vfu_sgl_put` check that the device may use guest
memory at this point, and abort the process if not (`lib/libvfio-user.c:2199-2275`). -/

namespace Verif.Server
open Verif
open Verif.Dma (Fd)

/-- `lib/libvfio-user.c:2199-2212` `quiesce_check_allowed`: does it call `abort`?  From `in_cb`, whether there is a quiesce
callback, and the quiesced flag. -/
def stops (cb : CbType) (hasQuiesce quiesced : Bool) : Bool :=
  !(cb != .none || !hasQuiesce || !quiesced)

theorem stops_eq {cb : CbType} {h q : Bool} : stops cb h q = true ↔ cb = .none ∧ h = true ∧ q = true := by
  cases cb <;> cases h <;> cases q <;> decide

/-- Where the device control register of the config space is taken to be, `lib/pci_caps.c` `access_is_pci_cap_exp`: without a
PCI Express capability `pci_cap_exp_off` is -1. -/
def pxdcOff (p : Pci.Pci) : Nat := match p.expOff with | some o => o + 8 | none => 7

/-- The request may have made the library quiesce the device. -/
def Halting (p : Pci.Pci) (m : Msg) : Prop :=
  m.hdr.cmd = 2 ∨ m.hdr.cmd = 3 ∨ m.hdr.cmd = 13 ∨ m.hdr.cmd = 16 ∨
    m.hdr.cmd = 10 ∧ leAt m.body 8 4 = 7 ∧ leAt m.body 0 8 = pxdcOff p

theorem halting_of_needs {cfg : Cfg} {st : St} {m : Msg} {p : Pci.Pci} (hp : layout st.pci = layout p)
    (h : needsQuiesce cfg st m = true) : Halting p m := by
  unfold needsQuiesce at h
  by_cases h0 : cfg.hasQuiesce = false
  · rw [if_pos h0] at h; cases h
  rw [if_neg h0] at h
  by_cases h1 : m.hdr.cmd = Wire.CMD_DMA_MAP ∨ m.hdr.cmd = Wire.CMD_DMA_UNMAP
  · exact h1.elim .inl fun h => .inr (.inl h)
  rw [if_neg h1] at h
  by_cases h2 : m.hdr.cmd = Wire.CMD_RESET
  · exact .inr (.inr (.inl h2))
  rw [if_neg h2] at h
  by_cases h3 : m.hdr.cmd = Wire.CMD_REGION_WRITE
  · rw [if_pos h3] at h
    by_cases h4 : m.body.length < 16
    · rw [if_pos h4] at h; cases h
    rw [if_neg h4] at h
    have he : (layout st.pci).expOff = (layout p).expOff := congrArg Pci.Pci.expOff hp
    have he : st.pci.expOff = p.expOff := he
    unfold Pci.isPxdc at h
    rw [he] at h
    simp only [Bool.and_eq_true, beq_iff_eq] at h
    exact .inr (.inr (.inr (.inr ⟨h3, h.1, h.2⟩)))
  rw [if_neg h3] at h
  by_cases h4 : m.hdr.cmd = Wire.CMD_FEATURE
  · exact .inr (.inr (.inr (.inl h4)))
  rw [if_neg h4] at h
  cases h

/-- What may run with `in_cb` clear on a quiesced device. -/
def Exposed (p : Pci.Pci) (c : Call) : Prop := ∃ off buf, c = .region 7 off buf true ∧ pxdcOff p ≤ off

theorem exposed_of_prompts {p : Pci.Pci} {m : Msg} {c : Call} (hm : Halting p m) (h : Prompts m c) (he : expected c = .none) :
    Exposed p c := by
  cases c with
  | quiesce r | dmaRegister i | dmaUnregister i | reset r | migState v => cases he
  | migData e =>
    unfold Halting at hm
    cases e with
    | read n r => have := h.1; omega
    | write d => have := h.1; omega
  | irqState i s n k => have := h.1; unfold Halting at hm; omega
  | region r off buf w =>
    obtain ⟨h1, h2, i, h3, -⟩ := h
    unfold Halting at hm
    cases w with
    | false =>
      have h1 : m.hdr.cmd = 9 := h1
      omega
    | true =>
      have h1 : m.hdr.cmd = 10 := h1
      refine ⟨off, buf, ?_, by omega⟩
      rw [show r = 7 by omega]

/-- Among the events, no callback but an exposed one runs with `in_cb` clear on a quiesced device. -/
def Shielded (p : Pci.Pci) (l : List Ev) : Prop := ∀ c, Ev.call c true ∈ l → expected c = .none → Exposed p c

theorem Shielded.nil {p : Pci.Pci} : Shielded p [] := fun _ h => by cases h

theorem Shielded.append {p : Pci.Pci} {a b : List Ev} (ha : Shielded p a) (hb : Shielded p b) : Shielded p (a ++ b) :=
  fun c h => (List.mem_append.mp h).elim (ha c) (hb c)

theorem Shielded.cons {p : Pci.Pci} {e : Ev} (he : ∀ c q, e ≠ .call c q) {l : List Ev} (h : Shielded p l) : Shielded p (e :: l) :=
  fun c hc => (List.mem_cons.mp hc).elim (fun h => absurd h.symm (he c true)) (h c)

/-- Nothing but pauses and farewells. -/
theorem shielded_of_caused {p : Pci.Pci} {l : List Ev} (h : Caused none l) : Shielded p l := by
  intro c hc he
  rcases h c (mem_calls.mpr ⟨true, hc⟩) with ⟨r, rfl⟩ | ⟨m, hm, _⟩ | ⟨hf, _⟩
  · cases he
  · cases hm
  · cases c with
    | quiesce r | dmaRegister i | dmaUnregister i | reset r | migState v => cases he
    | migData e | irqState i s n k | region r off buf w => cases hf

theorem shielded_quiesce {p : Pci.Pci} (r : Option Nat) (q : Bool) : Shielded p (bracket .quiesce (.quiesce r) q) :=
  shielded_of_caused (caused_quiesce r q)

/-- Once quiesced, quiesced until control returns to the caller. -/
theorem watch_mono {hasQ : Bool} : ∀ (l : List Ev) (cb : CbType) (s : CbType × Bool), .ret ∉ l →
    monitor (watch hasQ) (cb, true) l = some s → s.2 = true := by
  intro l
  induction l with
  | nil =>
    intro cb s _ h
    simp only [monitor, Option.some.injEq] at h
    rw [← h]
  | cons e es ih =>
    intro cb s hr h
    simp only [monitor] at h
    have hr' : Ev.ret ∉ es := fun h => hr (.tail _ h)
    cases hw : watch hasQ (cb, true) e with
    | none => rw [hw] at h; cases h
    | some s1 =>
      rw [hw] at h
      dsimp only at h
      have : s1.2 = true := by
        cases e with
        | ret => exact absurd (.head _) hr
        | call c q =>
          simp only [watch] at hw
          split at hw
          · simp only [Option.some.injEq] at hw; rw [← hw]; rfl
          · cases hw
        | devQuiesced n => simp only [watch, Option.some.injEq] at hw; rw [← hw]; simp
        | _ => simp only [watch, Option.some.injEq] at hw; rw [← hw]
      obtain ⟨c1, z1⟩ := s1
      cases this
      exact ih _ _ hr' h

/-- A request that does not quiesce runs its callbacks on a device that is not quiesced. -/
theorem exec_unquiesced {cfg : Cfg} {env : Env} {st : St} {m : Msg} (hq : st.quiesced = false)
    (hn : ¬ needsQuiesce cfg st m = true) (c : Call) : Ev.call c true ∉ (exec cfg env st m).evs := by
  intro h
  have hw := watch_exec (z := false) cfg env st m (by rw [hq]; exact fun h => by cases h)
    (fun _ => .inr (by simpa using hn))
  have hin := (tame_exec cfg env st m).evs
  obtain ⟨a, b, hab⟩ := List.append_of_mem h
  rw [hab] at hw hin
  obtain ⟨s1, h1, h2⟩ := monitor_prefix hw
  obtain ⟨cb, z⟩ := s1
  simp only [monitor, watch] at h2
  split at h2
  · cases h2
  · rename_i s2 hw2
    split at hw2
    · rename_i hc
      have hz : z = true := hc.2.1 trivial
      subst hz
      simp only [Bool.true_or, Option.some.injEq] at hw2
      subst hw2
      have hr : Ev.ret ∉ b := fun h => hin _ (List.mem_append.mpr (.inr (.tail _ h)))
      have := watch_mono b cb _ hr h2
      cases this
    · cases hw2

section
variable {cfg : Cfg} {p : Pci.Pci} (hsz : ∀ r ∈ cfg.tbl, r.size < U32) (hl : LayoutOk cfg.tbl p)

theorem shielded_finish (hi : cfg.irq.Ok) {dma : Option (Nat × Nat)} (env : Env) (ho : env.os.Ok) (k : Nat) {st : St}
    (h : Core cfg dma p st) (m : Msg) (he : Shielded p (exec cfg env st m).evs) :
    Shielded p (handleRequest cfg env k st m).evs := by
  have ht := (stable_reached cfg dma).exec ho h.tables m
  unfold handleRequest
  dsimp only
  generalize exec cfg env st m = d at he ht
  have he' : Shielded p (.exec m.hdr :: d.evs) := .cons (by simp) he
  by_cases hf : d.res.isFault = true
  · rw [if_pos hf]; exact he'
  rw [if_neg hf]
  have h1 := he'.append (shielded_of_caused (caused_doReply hi env k ht m.hdr d.out d.outFds (replyErr d.res)))
  unfold finish
  dsimp only
  by_cases hf : (doReply cfg env k d.st m.hdr d.out d.outFds (replyErr d.res)).res.isFault = true
  · rw [if_pos hf]; exact h1
  · rw [if_neg hf]
    exact (h1.append (shielded_of_caused (caused_closes _))).append (shielded_of_caused caused_freed)

include hsz hl

theorem shielded_halting (hi : cfg.irq.Ok) {dma : Option (Nat × Nat)} (env : Env) (ho : env.os.Ok) (k : Nat) {st : St}
    (h : Core cfg dma p st) {m : Msg} (hm : Halting p m) : Shielded p (handleRequest cfg env k st m).evs := by
  refine shielded_finish hi env ho k h m ?_
  intro c hc he
  exact exposed_of_prompts hm (exec_prompts hsz hl h.pci c (mem_calls.mpr ⟨true, hc⟩)) he

/-- The request that waits for the device is one that needed it to quiesce. -/
def Waits (p : Pci.Pci) (st : St) : Prop := ∀ m, st.pending = .msg m → Halting p m

omit hsz hl in
theorem Waits.keeps {st st' : St} (h : Waits p st) (hk : Keeps st.pending st'.pending) : Waits p st' := by
  intro m hm
  rcases hk with e | e
  · exact h m (e ▸ hm)
  · rw [e] at hm; cases hm

theorem shielded_call (hi : cfg.irq.Ok) {dma : Option (Nat × Nat)} {st : St} (h : Core cfg dma p st) (hq : st.quiesced = false)
    (hw : Waits p st) (op : Op) (ho : op.OSOk) : Shielded p (call cfg st op).evs ∧ Waits p (call cfg st op).st := by
  have ht := h.tables
  have hr : ∀ {l : List Ev}, Caused none l → Shielded p l := fun h => shielded_of_caused h
  cases op with
  | run env i =>
    have hos := ho env rfl
    show Shielded p (poll cfg env st i).evs ∧ Waits p (poll cfg env st i).st
    unfold poll
    by_cases h1 : st.pending ≠ .none
    · rw [if_pos h1]; exact ⟨.nil, hw⟩
    rw [if_neg h1]
    by_cases h2 : st.conn = false
    · rw [if_pos h2]; exact ⟨.nil, hw⟩
    rw [if_neg h2]
    cases i with
    | again => exact ⟨.nil, hw⟩
    | lost e leak => exact ⟨.cons (by simp) (hr (caused_resetCtx hi env 0 ht)), hw.keeps (resetCtx_keeps ..)⟩
    | failed e leak => exact ⟨.cons (by simp) .nil, hw⟩
    | bad hd fds e => exact ⟨.cons (by simp) (hr (caused_refuse hi env 0 ht hd fds e)), hw.keeps (refuse_keeps ..)⟩
    | req hd body fds =>
      dsimp only
      suffices g : Shielded p (dispatch cfg env st ⟨hd, body, fds⟩).evs ∧ Waits p (dispatch cfg env st ⟨hd, body, fds⟩).st from
        ⟨.cons (by simp) g.1, g.2⟩
      unfold dispatch
      dsimp only
      by_cases h3 : shouldExec st.mig hd.cmd = false
      · rw [if_pos h3]; exact ⟨hr (caused_refuse hi env 0 ht _ _ _), hw.keeps (refuse_keeps ..)⟩
      rw [if_neg h3]
      by_cases h4 : needsQuiesce cfg st ⟨hd, body, fds⟩ = true
      · rw [if_pos h4]
        have hm := halting_of_needs h.pci h4
        have hb := shielded_quiesce (p := p) (env.quiesce 0) st.quiesced
        revert hb
        generalize bracket .quiesce (.quiesce (env.quiesce 0)) st.quiesced = br
        intro hb
        cases env.quiesce 0 with
        | none =>
          refine ⟨hb.append (shielded_halting hsz hl hi env hos 1 (st := { st with quiesced := true }) ⟨ht, h.mig, h.pci⟩ hm), ?_⟩
          exact Waits.keeps (st := st) hw (handleRequest_keeps cfg env 1 { st with quiesced := true } _)
        | some e =>
          dsimp only
          by_cases he : e = EBUSY
          · rw [if_pos he]
            refine ⟨hb, fun m hm' => ?_⟩
            cases hm'
            exact hm
          · rw [if_neg he]; exact ⟨hb.append (hr (caused_refuse hi env 1 ht _ _ _)), hw.keeps (refuse_keeps ..)⟩
      · rw [if_neg h4]
        refine ⟨shielded_finish hi env hos 0 h _ ?_, Waits.keeps (st := st) hw (handleRequest_keeps cfg env 0 st _)⟩
        exact fun c hc => absurd hc (exec_unquiesced hq h4 c)
  | quiesced env e =>
    have ho := ho env rfl
    show Shielded p (deviceQuiesced cfg env st e).evs ∧ Waits p (deviceQuiesced cfg env st e).st
    unfold deviceQuiesced
    by_cases h1 : cfg.hasQuiesce = false ∨ st.pending = .none
    · rw [if_pos h1]; exact ⟨.nil, hw⟩
    rw [if_neg h1]
    dsimp only
    refine ⟨.cons (by simp) ?_, fun m hm => by cases hm⟩
    by_cases he : e = 0
    · rw [if_pos he]
      cases hpd : st.pending with
      | none => exact .nil
      | msg m =>
        have := shielded_halting hsz hl hi env ho 0 (st := { st with quiesced := true }) ⟨ht, h.mig, h.pci⟩ (hw m hpd)
        simpa only [hpd] using this
      | ctxReset =>
        have := shielded_of_caused (p := p) (caused_resetQuiesced (cfg := cfg) (s := none) hi env (st := { st with quiesced := true }) ht)
        simpa only [hpd] using this
    · rw [if_neg he]
      cases st.pending with
      | none => exact .nil
      | msg m => exact hr ((caused_closes _).append caused_freed)
      | ctxReset => exact .nil
  | transfer env lost =>
    show Shielded p (transfer cfg env st lost).evs ∧ Waits p (transfer cfg env st lost).st
    unfold transfer
    by_cases h1 : st.pending ≠ .none
    · rw [if_pos h1]; exact ⟨.nil, hw⟩
    rw [if_neg h1]
    by_cases h : lost = true ∧ st.conn = true
    · rw [if_pos h]; exact ⟨hr (caused_resetCtx hi env 0 ht), hw.keeps (resetCtx_keeps ..)⟩
    · rw [if_neg h]; exact ⟨.nil, hw⟩
  | attach n =>
    show Shielded p (attach st n).evs ∧ Waits p (attach st n).st
    unfold attach
    by_cases h : st.conn = true
    · rw [if_pos h]; exact ⟨.nil, hw⟩
    rw [if_neg h]
    cases n <;> exact ⟨.nil, hw⟩
  | config f => exact ⟨.nil, hw⟩
  | mark sgl =>
    simp only [call]
    cases st.dma with
    | none => exact ⟨.nil, hw⟩
    | some c => dsimp only; cases Dma.sglMark c sgl <;> exact ⟨.nil, hw⟩
  | trigger wr sub => exact ⟨hr (.silent (calls_ofIrq _ (trigger_state wr st.irqs sub))), hw⟩

theorem shielded_run (hi : cfg.irq.Ok) {dma : Option (Nat × Nat)} (ops : List Op) : ∀ {st : St}, Core cfg dma p st →
    st.quiesced = false → Waits p st → (∀ o ∈ ops, o.OSOk) → Shielded p (run cfg st ops).2 := by
  induction ops with
  | nil => exact fun _ _ _ _ => .nil
  | cons o ops ih =>
    intro st h hq hw ho
    have h1 := shielded_call hsz hl hi h hq hw o (ho o (.head _))
    have h2 := (core_kept cfg dma p).call h o (ho o (.head _))
    have h3 := call_quiesced cfg st o hq
    simp only [run]
    by_cases hf : (call cfg st o).res.isFault = true
    · rw [if_pos hf]; exact h1.1
    · rw [if_neg hf]
      exact h1.1.append (.cons (by simp) (ih h2 h3 h1.2 fun o h => ho o (.tail _ h)))

/-- C106: in every history, wherever a callback of the device runs, a DMA function of the library called there passes the check
of the debug build — unless it is the callback of the config space, for a write that starts at the device control register or,
on a device without a PCI Express capability, at offset 7. -/
theorem C106_guard (hi : cfg.irq.Ok) (mig : Bool) (dma : Option (Nat × Nat)) (ops : List Op) (ho : ∀ o ∈ ops, o.OSOk)
    {a b : List Ev} {c : Call} {q : Bool} (h : (run cfg (init cfg mig dma p) ops).2 = a ++ .call c q :: b)
    (hs : stops (inCbAt a) cfg.hasQuiesce q = true) :
    ∃ off buf, c = .region 7 off buf true ∧ (match p.expOff with | some o => o + 8 | none => 7) ≤ off := by
  obtain ⟨h1, -, rfl⟩ := stops_eq.mp hs
  rw [(C60_bookkeeping cfg (init cfg mig dma p) rfl ops).1 a b c true h |>.1] at h1
  refine shielded_run hsz hl hi ops (core_init cfg mig dma p) rfl (fun m hm => by cases hm) ho c ?_ h1
  rw [h]
  simp

omit hsz hl

/-- C106: between the calls into the library, the check passes always. -/
theorem C106_outside (mig : Bool) (dma : Option (Nat × Nat)) (ops : List Op) :
    stops (inCbAt (run cfg (init cfg mig dma p) ops).2) cfg.hasQuiesce (run cfg (init cfg mig dma p) ops).1.quiesced = false := by
  have h := (C60_bookkeeping cfg (init cfg mig dma p) rfl ops).2.2.2
  rw [h]
  unfold stops
  simp

end

/-! ## A device that is stopped -/

section
open Demo

/-- A PCI Express capability of the device's own: registered with `VFU_CAP_FLAG_CALLBACK`. -/
def ownExp : Pci.Pci :=
  (Pci.addCap true (Pci.init false (fun _ => (0, false))) 0 { Pci.std with cbk := true }
    (Pci.pad [0x10, 0, 2, 0, 0, 0, 0, 0x10] 0x3c)).1

theorem ownExp_reach : Pci.Reach true ownExp :=
  (Pci.Reach.init false (fun _ => (0, false))).addStd 0 { Pci.std with cbk := true } _ 0x40 0x3c rfl (by decide +kernel) rfl
    (by decide +kernel) (by decide +kernel)

def ownDev : Cfg :=
  { cfg with
    tbl := (List.replicate 9 Region.Reg.blank).set 7 { Region.Reg.blank with flags := 3, size := 256, hasCb := true } }

theorem own_layout : LayoutOk ownDev.tbl ownExp where
  bounded := ownExp_reach.inv.bnd
  sized := by unfold Pci.Sized; decide +kernel
  disj := Pci.disj_of_inv ownExp_reach.inv
  region := by
    intro r hr
    have : ownDev.tbl[7]? = some { Region.Reg.blank with flags := 3, size := 256, hasCb := true } := by decide
    rw [this] at hr
    cases hr
    decide +kernel

/-- A write to the device control register, and a map. -/
def ownOps : List Op :=
  [.attach (.ok ⟨8, 1048576, 4096, false⟩), .run env (req 1 10 0 (cfgBody 0x48 (enc 2 0)) []),
    .run env (req 2 10 0 (cfgBody 0x60 (enc 2 0)) [])]

/-- C106: the exception happens.  The device handles its PCI Express capability itself; in its callback for the device control
register the check stops it, in the one for any other register it does not. -/
theorem C106_stopped :
    Pci.Reach true ownExp ∧ ownDev.hasQuiesce = true ∧ Real (req 1 10 0 (cfgBody 0x48 (enc 2 0)) []) ∧
    (run ownDev (init ownDev true none ownExp) ownOps).2.filterMap
      (fun e => match e with | .call (.region r off _ w) q => some (r, off, w, stops .none true q) | _ => none) =
        [(7, 0x48, true, true), (7, 0x60, true, false)] :=
  ⟨ownExp_reach, rfl, cfg_real _ _ _ (by decide) (by decide), by decide +kernel⟩

example {a b : List Ev} {c : Call} {q : Bool} (h : (run ownDev (init ownDev true none ownExp) ownOps).2 = a ++ .call c q :: b)
    (hs : stops (inCbAt a) ownDev.hasQuiesce q = true) :
    ∃ off buf, c = .region 7 off buf true ∧ (match ownExp.expOff with | some o => o + 8 | none => 7) ≤ off := by
  refine C106_guard (by decide) own_layout irq_ok true none ownOps ?_ h hs
  intro o h
  simp only [ownOps, List.mem_cons, List.not_mem_nil, or_false] at h
  rcases h with rfl | rfl | rfl
  · exact fun _ h => by cases h
  all_goals exact fun _ h => by cases h; exact os_ok

end
end Verif.Server
