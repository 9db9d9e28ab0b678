import Verif.Server.Model

/-! # Frames of the handlers: which parts of the state they leave alone, which events they cause. -/

namespace Verif.Server
open Verif
open Verif.Dma (Fd)

/-- What no handler touches. -/
structure Same (a b : St) : Prop where
  conn : b.conn = a.conn
  pending : b.pending = a.pending
  quiesced : b.quiesced = a.quiesced
  maxFds : b.maxFds = a.maxFds
  maxXfer : b.maxXfer = a.maxXfer

theorem Same.rfl {a : St} : Same a a := ⟨_root_.rfl, _root_.rfl, _root_.rfl, _root_.rfl, _root_.rfl⟩

/-- Events inside a handler. -/
def Ev.Inner : Ev → Prop
  | .inCb _ | .call _ _ | .mmap _ _ | .munmap _ _ | .close _ | .signal _ => True
  | _ => False

theorem inner_bracket {t : CbType} {c : Call} {q : Bool} : ∀ e ∈ bracket t c q, e.Inner := by
  intro e he
  simp only [bracket, List.mem_cons, List.not_mem_nil, or_false] at he
  rcases he with rfl | rfl | rfl <;> trivial

theorem inner_ofDma {q : Bool} (x : Dma.Ev) : ∀ e ∈ ofDma q x, e.Inner := by
  cases x <;> simp only [ofDma]
  · exact inner_bracket
  · exact inner_bracket
  all_goals (intro e he; simp only [List.mem_cons, List.not_mem_nil, or_false] at he; subst he; trivial)

theorem inner_ofIrq {q : Bool} (x : Irq.Ev) : ∀ e ∈ ofIrq q x, e.Inner := by
  cases x <;> simp only [ofIrq]
  all_goals (intro e he; simp only [List.mem_cons, List.not_mem_nil, or_false] at he; subst he; trivial)

theorem inner_ofPci {q : Bool} (x : Pci.Ev) : ∀ e ∈ ofPci q x, e.Inner := by
  cases x <;> simp only [ofPci]
  · intro e he; simp only [List.mem_cons, List.not_mem_nil, or_false] at he; subst he; trivial
  · exact inner_bracket

theorem inner_flatMap {α : Type} {f : α → List Ev} (h : ∀ x, ∀ e ∈ f x, e.Inner) (l : List α) :
    ∀ e ∈ l.flatMap f, e.Inner := by
  intro e he
  obtain ⟨x, _, hx⟩ := List.mem_flatMap.mp he
  exact h x e hx

theorem inner_closes (fds : List (Option Fd)) : ∀ e ∈ closes fds, e.Inner := by
  intro e he
  obtain ⟨x, _, rfl⟩ := List.mem_map.mp he
  trivial

theorem inner_afterCalls (cfg : Cfg) (env : Env) (q : Bool) (cs : List Region.Call) :
    ∀ p, ∀ e ∈ (afterCalls cfg env q p cs).2, e.Inner := by
  induction cs with
  | nil => intro p e he; simp [afterCalls] at he
  | cons c cs ih =>
    intro p e he
    cases c with
    | config off buf w =>
      simp only [afterCalls, List.mem_append] at he
      rcases he with he | he
      · exact inner_flatMap inner_ofPci _ e he
      · exact ih _ e he
    | cb r off buf w =>
      simp only [afterCalls, List.mem_cons] at he
      rcases he with rfl | he
      · trivial
      · exact ih _ e he

/-- A handler keeps to its part. -/
structure Done.Tame (st : St) (d : Done) : Prop where
  same : Same st d.st
  evs : ∀ e ∈ d.evs, e.Inner

theorem tame_pure {st st' : St} (h : Same st st') {fds : List Fd} {r : Res (List Byte)} {o : Wire.Body} {evs : List Ev}
    (he : ∀ e ∈ evs, e.Inner) : (Done.pure st' fds r o evs).Tame st := ⟨h, he⟩

theorem no_evs {e : Ev} (he : e ∈ ([] : List Ev)) : e.Inner := by cases he

theorem tame_dmaMap (cfg : Cfg) (env : Env) (st : St) (c : Dma.Ctl) (body : List Byte) (fds : List Fd) :
    (dmaMap cfg env st c body fds).Tame st := by
  unfold dmaMap
  by_cases h1 : body = []
  · rw [if_pos h1]; exact ⟨Same.rfl, fun e he => no_evs he⟩
  rw [if_neg h1]
  by_cases h2 : body.length < 32 ∨ leAt body 0 4 < 32
  · rw [if_pos h2]; exact ⟨Same.rfl, fun e he => no_evs he⟩
  rw [if_neg h2]
  exact ⟨⟨rfl, rfl, rfl, rfl, rfl⟩, inner_flatMap inner_ofDma _⟩

theorem tame_dmaUnmap (cfg : Cfg) (env : Env) (st : St) (c : Dma.Ctl) (body : List Byte) (fds : List Fd) :
    (dmaUnmap cfg env st c body fds).Tame st := by
  unfold dmaUnmap
  by_cases h1 : body = []
  · rw [if_pos h1]; exact ⟨Same.rfl, fun e he => no_evs he⟩
  rw [if_neg h1]
  cases validUnmap body with
  | err e => exact ⟨Same.rfl, fun e he => no_evs he⟩
  | fault f => exact ⟨Same.rfl, fun e he => no_evs he⟩
  | ok u =>
    dsimp only
    cases (Dma.handleUnmap env.alloc cfg.dma.hasUnreg c (leAt body 8 8) (leAt body 16 8) (unmapKind env body)).2.1 with
    | ok b => cases b <;> exact ⟨⟨rfl, rfl, rfl, rfl, rfl⟩, inner_flatMap inner_ofDma _⟩
    | okEmpty => exact ⟨⟨rfl, rfl, rfl, rfl, rfl⟩, inner_flatMap inner_ofDma _⟩
    | err e => exact ⟨⟨rfl, rfl, rfl, rfl, rfl⟩, inner_flatMap inner_ofDma _⟩
    | fault f => exact ⟨⟨rfl, rfl, rfl, rfl, rfl⟩, inner_flatMap inner_ofDma _⟩

theorem same_deviceReset (cfg : Cfg) (env : Env) (st : St) (r : Reason) : Same st (deviceReset cfg env st r).1 := by
  unfold deviceReset
  by_cases h : cfg.hasReset = true
  · rw [if_pos h]
    dsimp only
    cases env.resetCb r <;> exact ⟨rfl, rfl, rfl, rfl, rfl⟩
  · rw [if_neg h]; exact ⟨rfl, rfl, rfl, rfl, rfl⟩

/-- The events of a reset. -/
theorem evs_deviceReset (cfg : Cfg) (env : Env) (st : St) (r : Reason) :
    (deviceReset cfg env st r).2.2 = if cfg.hasReset = true then bracket .reset (.reset r) st.quiesced else [] := by
  unfold deviceReset
  by_cases h : cfg.hasReset = true
  · rw [if_pos h, if_pos h]
    dsimp only
    cases env.resetCb r <;> rfl
  · rw [if_neg h, if_neg h]

theorem inner_deviceReset (cfg : Cfg) (env : Env) (st : St) (r : Reason) :
    ∀ e ∈ (deviceReset cfg env st r).2.2, e.Inner := by
  rw [evs_deviceReset]
  by_cases h : cfg.hasReset = true
  · rw [if_pos h]; exact inner_bracket
  · rw [if_neg h]; intro e he; cases he

theorem tame_exec (cfg : Cfg) (env : Env) (st : St) (m : Msg) : (exec cfg env st m).Tame st := by
  have hp : ∀ r o, (Done.pure st m.fds r o []).Tame st := fun r o => tame_pure Same.rfl (fun e he => no_evs he)
  unfold exec
  by_cases h1 : m.hdr.cmd = Wire.CMD_DMA_MAP
  · rw [if_pos h1]
    cases st.dma with
    | none => exact hp _ _
    | some c => exact tame_dmaMap ..
  rw [if_neg h1]
  by_cases h1 : m.hdr.cmd = Wire.CMD_DMA_UNMAP
  · rw [if_pos h1]
    cases st.dma with
    | none => exact hp _ _
    | some c => exact tame_dmaUnmap ..
  rw [if_neg h1]
  by_cases h1 : m.hdr.cmd = Wire.CMD_GET_INFO
  · rw [if_pos h1]; exact hp _ _
  rw [if_neg h1]
  by_cases h1 : m.hdr.cmd = Wire.CMD_REGION_INFO
  · rw [if_pos h1]; exact ⟨Same.rfl, fun e he => no_evs he⟩
  rw [if_neg h1]
  by_cases h1 : m.hdr.cmd = Wire.CMD_REGION_IO_FDS
  · rw [if_pos h1]; exact ⟨Same.rfl, fun e he => no_evs he⟩
  rw [if_neg h1]
  by_cases h1 : m.hdr.cmd = Wire.CMD_IRQ_INFO
  · rw [if_pos h1]; exact hp _ _
  rw [if_neg h1]
  by_cases h1 : m.hdr.cmd = Wire.CMD_SET_IRQS
  · rw [if_pos h1]; exact ⟨⟨rfl, rfl, rfl, rfl, rfl⟩, inner_flatMap inner_ofIrq _⟩
  rw [if_neg h1]
  by_cases h1 : m.hdr.cmd = Wire.CMD_REGION_READ
  · rw [if_pos h1]; exact ⟨⟨rfl, rfl, rfl, rfl, rfl⟩, inner_afterCalls _ _ _ _ _⟩
  rw [if_neg h1]
  by_cases h1 : m.hdr.cmd = Wire.CMD_REGION_WRITE
  · rw [if_pos h1]; exact ⟨⟨rfl, rfl, rfl, rfl, rfl⟩, inner_afterCalls _ _ _ _ _⟩
  rw [if_neg h1]
  by_cases h1 : m.hdr.cmd = Wire.CMD_RESET
  · rw [if_pos h1]; exact ⟨same_deviceReset .., inner_deviceReset _ _ _ _⟩
  rw [if_neg h1]
  by_cases h1 : m.hdr.cmd = Wire.CMD_FEATURE
  · rw [if_pos h1]; exact ⟨⟨rfl, rfl, rfl, rfl, rfl⟩, inner_flatMap (fun _ => inner_bracket) _⟩
  rw [if_neg h1]
  have hm : ∀ (q : Bool) (l : List Mig.DataEv), ∀ e ∈ l.map (fun e => Ev.call (.migData e) q), e.Inner := by
    intro q l e he
    obtain ⟨x, _, rfl⟩ := List.mem_map.mp he
    trivial
  by_cases h1 : m.hdr.cmd = Wire.CMD_MIG_READ
  · rw [if_pos h1]; exact ⟨Same.rfl, hm _ _⟩
  rw [if_neg h1]
  by_cases h1 : m.hdr.cmd = Wire.CMD_MIG_WRITE
  · rw [if_pos h1]; exact ⟨Same.rfl, hm _ _⟩
  rw [if_neg h1]; exact hp _ _

/-! ## Monitors: properties of traces by an automaton -/

/-- The automaton `f` reads the trace; `none` when it rejects an event. -/
def monitor {σ : Type} (f : σ → Ev → Option σ) : σ → List Ev → Option σ
  | s, [] => some s
  | s, e :: es =>
    match f s e with
    | none => none
    | some s' => monitor f s' es

theorem monitor_append {σ : Type} (f : σ → Ev → Option σ) (a b : List Ev) (s : σ) :
    monitor f s (a ++ b) = (monitor f s a).bind (fun s' => monitor f s' b) := by
  induction a generalizing s with
  | nil => rfl
  | cons e es ih =>
    simp only [List.cons_append, monitor]
    cases f s e with
    | none => rfl
    | some s' => exact ih s'

theorem monitor_append_of {σ : Type} {f : σ → Ev → Option σ} {a b : List Ev} {s s1 s2 : σ}
    (h1 : monitor f s a = some s1) (h2 : monitor f s1 b = some s2) : monitor f s (a ++ b) = some s2 := by
  rw [monitor_append, h1]; exact h2

theorem monitor_cons_of {σ : Type} {f : σ → Ev → Option σ} {e : Ev} {b : List Ev} {s s1 s2 : σ}
    (h1 : f s e = some s1) (h2 : monitor f s1 b = some s2) : monitor f s (e :: b) = some s2 := by
  simp only [monitor, h1]; exact h2

theorem monitor_stay {σ : Type} {f : σ → Ev → Option σ} {s : σ} {a : List Ev} (h : ∀ e ∈ a, f s e = some s) :
    monitor f s a = some s := by
  induction a with
  | nil => rfl
  | cons e es ih =>
    exact monitor_cons_of (h e (.head _)) (ih fun x hx => h x (.tail _ hx))

theorem monitor_prefix {σ : Type} {f : σ → Ev → Option σ} {s s2 : σ} {a b : List Ev}
    (h : monitor f s (a ++ b) = some s2) : ∃ s1, monitor f s a = some s1 ∧ monitor f s1 b = some s2 := by
  rw [monitor_append] at h
  cases h1 : monitor f s a with
  | none => rw [h1] at h; cases h
  | some s1 => rw [h1] at h; exact ⟨s1, rfl, h⟩

theorem monitor_flatMap {σ α : Type} {f : σ → Ev → Option σ} {s : σ} {g : α → List Ev} {l : List α}
    (h : ∀ x ∈ l, monitor f s (g x) = some s) : monitor f s (l.flatMap g) = some s := by
  induction l with
  | nil => rfl
  | cons x xs ih =>
    rw [List.flatMap_cons]
    exact monitor_append_of (h x (.head _)) (ih fun y hy => h y (.tail _ hy))

/-! ## The commands one by one -/

theorem exec_elim {P : Done → Prop} (cfg : Cfg) (env : Env) (st : St) (m : Msg)
    (noDma : (m.hdr.cmd = Wire.CMD_DMA_MAP ∨ m.hdr.cmd = Wire.CMD_DMA_UNMAP) → st.dma = none →
      P (Done.pure st m.fds (.ok []) (.bytes []) []))
    (map : ∀ c, m.hdr.cmd = Wire.CMD_DMA_MAP → st.dma = some c → P (dmaMap cfg env st c m.body m.fds))
    (unmap : ∀ c, m.hdr.cmd = Wire.CMD_DMA_UNMAP → st.dma = some c → P (dmaUnmap cfg env st c m.body m.fds))
    (info : m.hdr.cmd = Wire.CMD_GET_INFO → P (getInfo cfg env st m.body m.fds))
    (regInfo : m.hdr.cmd = Wire.CMD_REGION_INFO → P (regionInfo cfg env st m.body m.fds))
    (ioFds : m.hdr.cmd = Wire.CMD_REGION_IO_FDS → P (regionIoFds cfg env st m.body m.fds))
    (irqI : m.hdr.cmd = Wire.CMD_IRQ_INFO → P (irqInfo cfg env st m.body m.fds))
    (irqS : m.hdr.cmd = Wire.CMD_SET_IRQS → P (setIrqs cfg env st m.body m.fds))
    (rd : m.hdr.cmd = Wire.CMD_REGION_READ → P (access cfg env st false m.body m.fds))
    (wr : m.hdr.cmd = Wire.CMD_REGION_WRITE → P (access cfg env st true m.body m.fds))
    (rst : m.hdr.cmd = Wire.CMD_RESET →
      P { st := (deviceReset cfg env st .device).1, res := (deviceReset cfg env st .device).2.1, out := .bytes [],
          outFds := [], left := m.fds.map some, evs := (deviceReset cfg env st .device).2.2 })
    (feat : m.hdr.cmd = Wire.CMD_FEATURE → P (feature env st m.body m.fds))
    (migR : m.hdr.cmd = Wire.CMD_MIG_READ → P (migRead env st m.body m.fds))
    (migW : m.hdr.cmd = Wire.CMD_MIG_WRITE → P (migWrite env st m.body m.fds))
    (other : m.hdr.cmd ∉ [Wire.CMD_DMA_MAP, Wire.CMD_DMA_UNMAP, Wire.CMD_GET_INFO, Wire.CMD_REGION_INFO,
      Wire.CMD_REGION_IO_FDS, Wire.CMD_IRQ_INFO, Wire.CMD_SET_IRQS, Wire.CMD_REGION_READ, Wire.CMD_REGION_WRITE,
      Wire.CMD_RESET, Wire.CMD_FEATURE, Wire.CMD_MIG_READ, Wire.CMD_MIG_WRITE] →
      P (Done.pure st m.fds (.err EINVAL) (.bytes []) [])) :
    P (exec cfg env st m) := by
  unfold exec
  by_cases h1 : m.hdr.cmd = Wire.CMD_DMA_MAP
  · rw [if_pos h1]
    cases hd : st.dma with
    | none => exact noDma (.inl h1) hd
    | some c => exact map c h1 hd
  rw [if_neg h1]
  by_cases h2 : m.hdr.cmd = Wire.CMD_DMA_UNMAP
  · rw [if_pos h2]
    cases hd : st.dma with
    | none => exact noDma (.inr h2) hd
    | some c => exact unmap c h2 hd
  rw [if_neg h2]
  by_cases h3 : m.hdr.cmd = Wire.CMD_GET_INFO
  · rw [if_pos h3]; exact info h3
  rw [if_neg h3]
  by_cases h4 : m.hdr.cmd = Wire.CMD_REGION_INFO
  · rw [if_pos h4]; exact regInfo h4
  rw [if_neg h4]
  by_cases h5 : m.hdr.cmd = Wire.CMD_REGION_IO_FDS
  · rw [if_pos h5]; exact ioFds h5
  rw [if_neg h5]
  by_cases h6 : m.hdr.cmd = Wire.CMD_IRQ_INFO
  · rw [if_pos h6]; exact irqI h6
  rw [if_neg h6]
  by_cases h7 : m.hdr.cmd = Wire.CMD_SET_IRQS
  · rw [if_pos h7]; exact irqS h7
  rw [if_neg h7]
  by_cases h8 : m.hdr.cmd = Wire.CMD_REGION_READ
  · rw [if_pos h8]; exact rd h8
  rw [if_neg h8]
  by_cases h9 : m.hdr.cmd = Wire.CMD_REGION_WRITE
  · rw [if_pos h9]; exact wr h9
  rw [if_neg h9]
  by_cases h10 : m.hdr.cmd = Wire.CMD_RESET
  · rw [if_pos h10]; exact rst h10
  rw [if_neg h10]
  by_cases h11 : m.hdr.cmd = Wire.CMD_FEATURE
  · rw [if_pos h11]; exact feat h11
  rw [if_neg h11]
  by_cases h12 : m.hdr.cmd = Wire.CMD_MIG_READ
  · rw [if_pos h12]; exact migR h12
  rw [if_neg h12]
  by_cases h13 : m.hdr.cmd = Wire.CMD_MIG_WRITE
  · rw [if_pos h13]; exact migW h13
  rw [if_neg h13]
  apply other
  simp only [List.mem_cons, List.not_mem_nil, or_false, not_or]
  exact ⟨h1, h2, h3, h4, h5, h6, h7, h8, h9, h10, h11, h12, h13⟩

/-- Outcomes of `dmaUnmap`. -/
theorem dmaUnmap_elim {P : Done → Prop} (cfg : Cfg) (env : Env) (st : St) (c : Dma.Ctl) (body : List Byte)
    (fds : List Fd)
    (early : ∀ r : Res Unit, (∀ u, r ≠ .ok u) →
      P { st, res := r, out := .bytes [], outFds := [], left := fds.map some, evs := [] })
    (late : ∀ r : Res Unit, ∀ l : List Byte, validUnmap body = .ok () →
      (∀ e, r = .err e → l = []) →
      P { st := { st with dma := some (Dma.handleUnmap env.alloc cfg.dma.hasUnreg c (leAt body 8 8) (leAt body 16 8)
            (unmapKind env body)).1 }, res := r, out := .bytes l, outFds := [], left := fds.map some,
          evs := (Dma.handleUnmap env.alloc cfg.dma.hasUnreg c (leAt body 8 8) (leAt body 16 8)
            (unmapKind env body)).2.2.flatMap (ofDma st.quiesced) }) :
    P (dmaUnmap cfg env st c body fds) := by
  unfold dmaUnmap
  by_cases h1 : body = []
  · rw [if_pos h1]; exact early _ (by simp)
  rw [if_neg h1]
  cases hv : validUnmap body with
  | err e => exact early _ (by simp)
  | fault f => exact early _ (by simp)
  | ok u =>
    dsimp only
    cases (Dma.handleUnmap env.alloc cfg.dma.hasUnreg c (leAt body 8 8) (leAt body 16 8) (unmapKind env body)).2.1 with
    | ok b =>
      cases b with
      | none => exact late _ _ hv (by simp)
      | some bm => exact late _ _ hv (by simp)
    | okEmpty => exact late _ _ hv (fun _ _ => rfl)
    | err e => exact late _ _ hv (fun _ _ => rfl)
    | fault f => exact late _ _ hv (fun _ _ => rfl)

/-- Outcomes of `dmaMap`. -/
theorem dmaMap_elim {P : Done → Prop} (cfg : Cfg) (env : Env) (st : St) (c : Dma.Ctl) (body : List Byte)
    (fds : List Fd)
    (early : ∀ r : Res Unit, (∀ u, r ≠ .ok u) →
      P { st, res := r, out := .bytes [], outFds := [], left := fds.map some, evs := [] })
    (late : ∀ o, o = Dma.handleMap env.os cfg.dma.hasReg c
        { flags := leAt body 4 4, offset := leAt body 8 8, addr := leAt body 16 8, size := leAt body 24 8, fds } →
      P { st := { st with dma := some o.ctl }, res := o.res, out := .bytes [], outFds := [], left := o.fds,
          evs := o.evs.flatMap (ofDma st.quiesced) }) :
    P (dmaMap cfg env st c body fds) := by
  unfold dmaMap
  by_cases h1 : body = []
  · rw [if_pos h1]; exact early _ (by simp)
  rw [if_neg h1]
  by_cases h2 : body.length < 32 ∨ leAt body 0 4 < 32
  · rw [if_pos h2]; exact early _ (by simp)
  rw [if_neg h2]
  exact late _ rfl

end Verif.Server
