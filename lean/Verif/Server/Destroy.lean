import Verif.Server.Trace

/-! # The end of a device (C68) -/

namespace Verif.Server
open Verif
open Verif.Dma (Fd)

/-- `lib/libvfio-user.c:1843-1870` `vfu_destroy_ctx` on a realized context: the quiesce callback is dropped, then the
reset for a lost connection, then the structures are freed; `dma_controller_destroy` (`lib/dma.c:217-222`) asserts that no
region is left.  A request that waits for its quiesce is not looked at.  The listening socket is left out. -/
def destroy (cfg : Cfg) (env : Env) (st : St) : Out :=
  let o := resetCtx { cfg with hasQuiesce := false } env 0 st
  if o.res.isFault = true then o
  else if ((o.st.dma.map (·.regions)).getD []).length ≠ 0 then { o with res := .fault .assertFail }
  else { o with res := .ok () }

/-- The calls of the quiesce callback. -/
def quiesces (evs : List Ev) : List (Option Nat) :=
  evs.filterMap fun e => match e with | .call (.quiesce r) _ => some r | _ => none

theorem reached_noQuiesce {cfg : Cfg} {dma : Option (Nat × Nat)} {d : Option Dma.Ctl} {i : Irq.Irqs}
    (h : Reached cfg dma d i) : Reached { cfg with hasQuiesce := false } dma d i := h

theorem quiesces_append (a b : List Ev) : quiesces (a ++ b) = quiesces a ++ quiesces b := List.filterMap_append ..

theorem quiesces_flatMap {α : Type} (f : α → List Ev) (l : List α) (h : ∀ a, quiesces (f a) = []) :
    quiesces (l.flatMap f) = [] := by
  induction l with
  | nil => rfl
  | cons a l ih => rw [List.flatMap_cons, quiesces_append, h, ih]; rfl

theorem quiesces_deviceReset (cfg : Cfg) (env : Env) (st : St) (r : Reason) :
    quiesces (deviceReset cfg env st r).2.2 = [] := by
  unfold deviceReset
  by_cases h : cfg.hasReset = true
  · rw [if_pos h]
    dsimp only
    cases env.resetCb r <;> rfl
  · rw [if_neg h]; rfl

theorem destroy_eq {cfg : Cfg} (hi : cfg.irq.Ok) {dma : Option (Nat × Nat)} (env : Env) {st : St}
    (ht : Reached cfg dma st.dma st.irqs) :
    destroy cfg env st = resetQuiesced cfg env st ∧ (resetQuiesced cfg env st).res = .ok () ∧
      (resetQuiesced cfg env st).st.dma = emptied dma st ∧
      quiesces (resetQuiesced cfg env st).evs = [] := by
  obtain ⟨ev3, hx⟩ := resetQuiesced_exact hi env ht
  have h1 : resetCtx { cfg with hasQuiesce := false } env 0 st = resetQuiesced cfg env st := by
    unfold resetCtx
    rw [if_neg (by simp)]
    rfl
  have h2 : (resetQuiesced cfg env st).st.dma = emptied dma st := by
    rw [hx]; exact (deviceReset_tables ..).1
  refine ⟨?_, by rw [hx], h2, ?_⟩
  · unfold destroy
    dsimp only
    rw [h1]
    have h3 : (resetQuiesced cfg env st).res = .ok () := by rw [hx]
    rw [h3, h2, if_neg (by simp [Res.isFault]), if_neg]
    · rw [← h3]
    · unfold emptied
      cases dma <;> simp
  · rw [hx]
    dsimp only
    rw [quiesces_append, quiesces_append, quiesces_append, quiesces_flatMap _ _ (fun e => by cases e <;> rfl),
      quiesces_deviceReset, quiesces_flatMap _ _ (fun e => by cases e <;> rfl)]
    rfl

/-- **C68**: a device can be destroyed at any time.  Whatever happened since it was realized — clients, requests,
connections lost, quiesces pending — destroying it does not crash and does not call the quiesce callback; the device is
asked to reset itself exactly once and the connection is closed; every mapping of client memory made during its life has
been removed, and every region announced to a device with both callbacks has been withdrawn. -/
theorem C68_destroy {cfg : Cfg} (hi : cfg.irq.Ok) (mig : Bool) (dma : Option (Nat × Nat)) (pci : Pci.Pci) (ops : List Op)
    (ho : ∀ op ∈ ops, op.OSOk) (env : Env) :
    let r := run cfg (init cfg mig dma pci) ops
    let d := destroy cfg env r.1
    let life := r.2 ++ d.evs
    d.res = .ok () ∧ quiesces d.evs = [] ∧ resets d.evs = (if cfg.hasReset = true then [.lostConn] else []) ∧
      Ev.detach ∈ d.evs ∧ d.st.conn = false ∧ (∀ s, d.st.irqs.at_ s = none) ∧
      (∀ base len, life.count (.mmap base len) = life.count (.munmap base len)) ∧
      (cfg.dma.hasReg = true → cfg.dma.hasUnreg = true →
        ∃ S, Dma.observe (fun _ => false) none (memory life) = some S ∧ ∀ i, S i = false) := by
  intro r d life
  have hreach : Reachable cfg mig dma r.1 := ⟨pci, ops, ho, rfl⟩
  obtain ⟨e1, e2, e3, e4⟩ := destroy_eq hi env hreach.tables
  have e1 : d = resetQuiesced cfg env r.1 := e1
  have hcl := reset_clean hi env (mig := mig) hreach.mig hreach.tables (p := [])
    (o := { resetQuiesced cfg env r.1 with
      st := { (resetQuiesced cfg env r.1).st with pending := .none } })
    (q := (resetQuiesced cfg env r.1).st.quiesced) ⟨rfl, rfl⟩ rfl rfl
  have htr : Traced cfg (init cfg mig dma pci).dma life d.st.dma := by
    refine (run_traced ops (init cfg mig dma pci) ho).trans ?_
    rw [e1]
    exact resetQuiesced_traced env r.1
  have hd : d.st.dma = emptied dma r.1 := by rw [e1]; exact e3
  rw [e1]
  refine ⟨e2, e4, hcl.asked, hcl.detached, hcl.conn, hcl.irqs, ?_, ?_⟩
  · intro b l
    have h := htr.maps b l
    have h1 : users (init cfg mig dma pci).dma b l = 0 := by
      unfold users init; cases dma <;> rfl
    have h2 : users d.st.dma b l = 0 := by
      rw [hd]; unfold users emptied; cases dma <;> rfl
    omega
  · intro hr hu
    rcases htr with ⟨_, _, h3⟩ | ⟨c, dops, h1, hk, h2, h3⟩
    · exact ⟨fun _ => false, by rw [h3]; rfl, fun _ => rfl⟩
    · cases hdma : dma with
      | none => rw [hdma] at h1; cases h1
      | some x =>
        rw [hdma] at h1
        cases h1
        obtain ⟨S, e, hS⟩ := Dma.C09_announcements cfg.dma hr hu x.1 x.2 dops hk
        refine ⟨S, by rw [h3, observe_seen]; exact e, fun i => ?_⟩
        have hc : (Dma.run cfg.dma (Dma.create x.1 x.2) dops).1.regions = [] := by
          rw [hd, hdma] at h2
          unfold emptied at h2
          simp only [Option.map_some, Option.some.injEq] at h2
          rw [← h2]
        cases hs : S i with
        | false => rfl
        | true =>
          obtain ⟨r, hr, _⟩ := (hS i).mp hs
          rw [hc] at hr
          cases hr

/-- C68, descriptors: of the descriptors that arrived with requests during its life (all different), each has been closed
exactly once when the device is gone, except those of a request that was waiting for its quiesce. -/
theorem C68_descriptors {cfg : Cfg} (hi : cfg.irq.Ok) (mig : Bool) (dma : Option (Nat × Nat)) (pci : Pci.Pci)
    (ops : List Op) (ho : ∀ op ∈ ops, op.OSOk) (hc : CleanRun cfg (init cfg mig dma pci) ops)
    (hf : Completes cfg (init cfg mig dma pci) ops) (env : Env) (x : Fd) :
    let r := run cfg (init cfg mig dma pci) ops
    let life := r.2 ++ (destroy cfg env r.1).evs
    (gots r.2).Nodup →
      closesOf life x + inPending r.1 x = if x ∈ gots r.2 then 1 else 0 := by
  intro r life hnd
  have hreach : Reachable cfg mig dma r.1 := ⟨pci, ops, ho, rfl⟩
  obtain ⟨e1, e2, e3, e4⟩ := destroy_eq hi env hreach.tables
  have h1 := C59_balance cfg mig dma pci ops ho hc hf x
  change owners r.1 x + closesOf r.2 x = (gots r.2).count x at h1
  have h2 := bal_resetQuiesced cfg env r.1 x
  unfold Bal at h2
  rw [gotOf_resetQuiesced] at h2
  obtain ⟨ev3, hx⟩ := resetQuiesced_exact hi env hreach.tables
  have h3 : owners (resetQuiesced cfg env r.1).st x = inPending r.1 x := by
    unfold owners
    have a1 : inRegions (resetQuiesced cfg env r.1).st x = 0 := by
      unfold inRegions
      rw [e3]
      unfold emptied
      cases dma <;> rfl
    have a2 : inVectors (resetQuiesced cfg env r.1).st x = 0 := by
      unfold inVectors
      rw [hx]
      have h : ∀ n, (List.replicate n (none : Option Fd)).count (some x) = 0 := fun n => by simp [List.count_replicate]
      simp [Irq.realize, h]
    have a3 : inPending (resetQuiesced cfg env r.1).st x = inPending r.1 x := by
      unfold inPending
      rw [hx]
      dsimp only
      rw [(same_deviceReset ..).pending]
    rw [a1, a2, a3]; omega
  rw [h3] at h2
  have h4 : closesOf life x = closesOf r.2 x + closesOf (resetQuiesced cfg env r.1).evs x := by
    rw [← e1]; exact closesOf_append ..
  rw [h4]
  by_cases hm : x ∈ gots r.2
  · rw [List.count_eq_one_of_mem hnd hm] at h1
    rw [if_pos hm]; omega
  · rw [List.count_eq_zero_of_not_mem hm] at h1
    rw [if_neg hm]; omega

section
open Demo

/-- C68: destroyed in the middle of the session of C57, with a request of the client deferred. -/
example : let r := run cfg (init cfg true (some (8, 2 ^ 40)) pci) fdTalk
    let d := destroy cfg env r.1
    (∃ m, r.1.pending = .msg m) ∧ r.2.count (.mmap 0x7f0000000000 0x200000) = 1 ∧
      d.evs.count (.munmap 0x7f0000000000 0x200000) = 1 ∧ closesOf d.evs 5 = 1 ∧ closesOf d.evs 6 = 1 ∧
      closesOf d.evs 7 = 1 ∧ resets d.evs = [.lostConn] ∧ (told d.evs).length = 1 := by
  refine ⟨⟨⟨hdr 6 3 0 24, unmapBody 0x100000, [9]⟩, by decide +kernel⟩, ?_⟩
  decide +kernel

example (x : Fd) := C68_descriptors (cfg := cfg) irq_ok true (some (8, 2 ^ 40)) pci fdTalk fdTalk_ok fdTalk_clean
  fdTalk_completes env x (by decide +kernel)

/-- C68, the exception: the descriptor of the deferred request is never closed. -/
theorem C68_pending_leak :
    let r := run cfg (init cfg true (some (8, 2 ^ 40)) pci) fdTalk
    9 ∈ gots r.2 ∧ closesOf (r.2 ++ (destroy cfg env r.1).evs) 9 = 0 := by decide +kernel

end

end Verif.Server
