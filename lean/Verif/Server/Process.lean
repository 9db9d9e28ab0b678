import Verif.Server.Soil
import Verif.Server.Crashes

/-!
# C117: several devices in one process

Contexts share nothing but `region_hint` of `dma_addr_to_sgl` (`lib/dma.h:243`), one per thread, and the counter of the ids of DMA
messages (`lib/libvfio-user.c:2282`; the transfers of C52 and C53 are for all ids).  Here the hint of each call is whatever the other
devices and threads left there. -/

namespace Verif.Server
open Verif

/-! ## One call -/

/-- The call finds this hint. -/
def Op.hinted (h : Nat) : Op → Op
  | .run env i => .run { env with hint := h } i
  | .quiesced env e => .quiesced { env with hint := h } e
  | .transfer env l => .transfer { env with hint := h } l
  | op => op

/-- The hint the call finds. -/
def Op.hintIs (P : Nat → Prop) : Op → Prop
  | .run env _ => P env.hint
  | .quiesced env _ => P env.hint
  | .transfer env _ => P env.hint
  | _ => True

/-- Ranges of dirty page queries end below 2^64: DMA_UNMAP with the bitmap flag, and the report of the logging feature (8). -/
def Modest (i : Wire.In) : Prop :=
  Plain i ∧ ∀ h body fds, i = .req h body fds →
    (h.cmd = 3 → leAt body 4 4 = 1 → leAt body 8 8 + leAt body 16 8 < U64) ∧
    (h.cmd = 16 → leAt body 4 4 % 65536 = 8 → leAt body 8 8 + leAt body 16 8 < U64)

/-- The controller, if the device has one, is in order. -/
def TidyIf (cfg : Cfg) (dma : Option (Nat × Nat)) (d : Option Dma.Ctl) : Prop :=
  match dma with
  | none => d = none
  | some x => Tidy cfg x d

theorem query_hint {cfg : Cfg} {x : Nat × Nat} {c : Dma.Ctl} (ht : Tidy cfg x (some c)) {h h' addr len : Nat} (hh : h < x.1)
    (hh' : h' < x.1) (hw : addr + len < U64) (pg size : Nat) (buf : List Byte) :
    Dma.dirtyPageGet c h addr len pg size buf = Dma.dirtyPageGet c h' addr len pg size buf := by
  obtain ⟨dops, g1, g2⟩ := ht
  cases g2
  unfold Dma.dirtyPageGet
  rw [Dma.C06_hint_independent cfg.dma x.1 x.2 dops (fun op ho => (g1 op ho).2) h h' addr len 1 false hh hh' hw]

theorem rd_val {b : List Byte} {i n v : Nat} (h : rd b i n = .ok v) : v = leAt b i n := by
  unfold rd at h
  split at h
  · cases h; rfl
  · cases h

theorem feature_hint {cfg : Cfg} {dma : Option (Nat × Nat)} {st : Mig.FSt} (ht : TidyIf cfg dma st.dma) {env : Mig.FEnv} {h : Nat}
    (hh : ∀ x, dma = some x → h < x.1 ∧ env.hint < x.1) {body : List Byte}
    (hw : leAt body 4 4 % 65536 = 8 → leAt body 8 8 + leAt body 16 8 < U64) :
    Mig.handleFeature { env with hint := h } st body = Mig.handleFeature env st body := by
  have hg : leAt body 4 4 % 65536 = 8 → ∀ argsz flags, Mig.dmaGet { env with hint := h } st.dma argsz flags body =
      Mig.dmaGet env st.dma argsz flags body := by
    intro h8 argsz flags
    cases hd : st.dma with
    | none => rfl
    | some c =>
      cases hx : dma with
      | none => subst hx; have ht : st.dma = none := ht; rw [hd] at ht; cases ht
      | some x =>
        subst hx
        have ht : Tidy cfg x (some c) := hd ▸ ht
        unfold Mig.dmaGet
        dsimp only
        cases r1 : rd body 8 8 with
        | err e => rfl
        | fault f => rfl
        | ok iova =>
          cases r2 : rd body 16 8 with
          | err e => rfl
          | fault f => rfl
          | ok len =>
            cases r3 : rd body 24 8 with
            | err e => rfl
            | fault f => rfl
            | ok pg =>
              dsimp only
              cases getBitmapSize len pg with
              | err e => rfl
              | fault f => rfl
              | ok n =>
                dsimp only
                rw [query_hint ht (hh x rfl).1 (hh x rfl).2 (by rw [rd_val r1, rd_val r2]; exact hw h8)]
  unfold Mig.handleFeature
  by_cases h1 : body.length < 8
  · rw [if_pos h1, if_pos h1]
  rw [if_neg h1, if_neg h1]
  dsimp only
  by_cases h2 : leAt body 4 4 &&& Mig.supported st.mig (leAt body 4 4 % 65536) ≠ leAt body 4 4 - leAt body 4 4 % 65536 ∨
      Mig.supported st.mig (leAt body 4 4 % 65536) = 0
  · rw [if_pos h2, if_pos h2]
  rw [if_neg h2, if_neg h2]
  cases hm : st.mig with
  | none => rfl
  | some m =>
    dsimp only
    by_cases h3 : leAt body 4 4 - leAt body 4 4 % 65536 = Mig.F_GET
    · rw [if_pos h3, if_pos h3]
      unfold Mig.featGet
      by_cases h4 : Mig.isMigFeature (leAt body 4 4 % 65536) = true
      · rw [if_pos h4, if_pos h4]
      rw [if_neg h4, if_neg h4]
      by_cases h5 : Mig.isDmaFeature (leAt body 4 4 % 65536) = true
      · rw [if_pos h5, if_pos h5]
        have h8 : leAt body 4 4 % 65536 = 8 := by
          by_contra hne
          have h67 : leAt body 4 4 % 65536 = 6 ∨ leAt body 4 4 % 65536 = 7 := by
            simp only [Mig.isDmaFeature, Bool.or_eq_true, beq_iff_eq, Mig.FEAT_LOG_START, Mig.FEAT_LOG_STOP, Mig.FEAT_LOG_REPORT] at h5
            omega
          have hs : Mig.supported st.mig (leAt body 4 4 % 65536) = Mig.F_SET ||| Mig.F_PROBE := by
            rw [hm]
            rcases h67 with h | h <;> rw [h] <;> rfl
          rw [not_or, not_not] at h2
          have hb := h2.1
          rw [hs, h3] at hb
          have := congrArg (Nat.testBit · 16) hb
          simp only [Nat.testBit_and] at this
          revert this
          have e1 : Nat.testBit (Mig.F_SET ||| Mig.F_PROBE) 16 = false := by decide
          have e2 : Nat.testBit Mig.F_GET 16 = true := by decide
          rw [e1, e2, Bool.and_false]
          simp
        rw [hg h8]
      · rw [if_neg h5, if_neg h5]
    · rw [if_neg h3, if_neg h3]
      rfl

theorem unmap_hint {cfg : Cfg} {x : Nat × Nat} {c : Dma.Ctl} (ht : Tidy cfg x (some c)) {env : Env} {h : Nat} (hh : h < x.1)
    (hh' : env.hint < x.1) {body : List Byte} (hw : leAt body 4 4 = 1 → leAt body 8 8 + leAt body 16 8 < U64) (st : St)
    (fds : List Dma.Fd) : dmaUnmap cfg { env with hint := h } st c body fds = dmaUnmap cfg env st c body fds := by
  have hk : Dma.handleUnmap env.alloc cfg.dma.hasUnreg c (leAt body 8 8) (leAt body 16 8) (unmapKind { env with hint := h } body) =
      Dma.handleUnmap env.alloc cfg.dma.hasUnreg c (leAt body 8 8) (leAt body 16 8) (unmapKind env body) := by
    unfold unmapKind
    by_cases h1 : leAt body 4 4 = UNMAP_ALL
    · rw [if_pos h1, if_pos h1]
    rw [if_neg h1, if_neg h1]
    by_cases h2 : leAt body 4 4 = UNMAP_DIRTY
    · rw [if_pos h2, if_pos h2]
      unfold Dma.handleUnmap
      dsimp only
      rw [query_hint ht hh hh' (hw h2)]
    · rw [if_neg h2, if_neg h2]
  unfold dmaUnmap
  dsimp only
  rw [hk]

theorem afterCalls_hint (cfg : Cfg) (env : Env) (h : Nat) (q : Bool) (p : Pci.Pci) (l : List Region.Call) :
    afterCalls cfg { env with hint := h } q p l = afterCalls cfg env q p l := by
  induction l generalizing p with
  | nil => rfl
  | cons a l ih =>
    cases a with
    | config off buf w =>
      have e : pciDev cfg { env with hint := h } = pciDev cfg env := rfl
      unfold afterCalls
      dsimp only
      rw [e, ih]
    | cb r off buf w =>
      unfold afterCalls
      dsimp only
      rw [ih]

theorem exec_hint {cfg : Cfg} {dma : Option (Nat × Nat)} {st : St} (ht : TidyIf cfg dma st.dma) {env : Env} {h : Nat}
    (hh : ∀ x, dma = some x → h < x.1 ∧ env.hint < x.1) {m : Msg} (hm : Modest (.req m.hdr m.body m.fds)) :
    exec cfg { env with hint := h } st m = exec cfg env st m := by
  obtain ⟨m1, m2⟩ := hm.2 _ _ _ rfl
  by_cases h1 : m.hdr.cmd = Wire.CMD_DMA_UNMAP
  · have h0 : ¬m.hdr.cmd = Wire.CMD_DMA_MAP := by rw [h1]; decide
    unfold exec
    rw [if_neg h0, if_neg h0, if_pos h1, if_pos h1]
    cases hd : st.dma with
    | none => rfl
    | some c =>
      dsimp only
      cases hx : dma with
      | none => subst hx; have ht : st.dma = none := ht; rw [hd] at ht; cases ht
      | some x =>
        subst hx
        exact unmap_hint (hd ▸ ht : Tidy cfg x (some c)) (hh x rfl).1 (hh x rfl).2 (m1 h1) st m.fds
  by_cases h2 : m.hdr.cmd = Wire.CMD_FEATURE
  · have hf : feature { env with hint := h } st m.body m.fds = feature env st m.body m.fds := by
      have := feature_hint (st := { mig := st.mig, dma := st.dma }) ht (env := env.feat) hh (m2 h2)
      unfold feature
      have he : ({ env with hint := h } : Env).feat = { env.feat with hint := h } := rfl
      rw [he, this]
      rfl
    unfold exec
    simp only [h2]
    exact hf
  · unfold exec
    rw [if_neg h1, if_neg h1, if_neg h2, if_neg h2]
    have e1 : ∀ c, dmaMap cfg { env with hint := h } st c m.body m.fds = dmaMap cfg env st c m.body m.fds := fun _ => rfl
    have e2 : getInfo cfg { env with hint := h } st m.body m.fds = getInfo cfg env st m.body m.fds := rfl
    have e3 : regionInfo cfg { env with hint := h } st m.body m.fds = regionInfo cfg env st m.body m.fds := rfl
    have e4 : regionIoFds cfg { env with hint := h } st m.body m.fds = regionIoFds cfg env st m.body m.fds := rfl
    have e5 : irqInfo cfg { env with hint := h } st m.body m.fds = irqInfo cfg env st m.body m.fds := rfl
    have e6 : setIrqs cfg { env with hint := h } st m.body m.fds = setIrqs cfg env st m.body m.fds := rfl
    have e7 : ∀ b, access cfg { env with hint := h } st b m.body m.fds = access cfg env st b m.body m.fds := by
      intro b
      have e : handlers cfg { env with hint := h } st.pci = handlers cfg env st.pci := rfl
      unfold access
      dsimp only
      rw [afterCalls_hint, e]
    have e8 : deviceReset cfg { env with hint := h } st .device = deviceReset cfg env st .device := rfl
    have e9 : migRead { env with hint := h } st m.body m.fds = migRead env st m.body m.fds := rfl
    have e10 : migWrite { env with hint := h } st m.body m.fds = migWrite env st m.body m.fds := rfl
    rw [e2, e3, e4, e5, e6, e7, e7, e8, e9, e10]
    simp only [e1]

theorem handle_hint {cfg : Cfg} {dma : Option (Nat × Nat)} {st : St} (ht : TidyIf cfg dma st.dma) {env : Env} {h : Nat}
    (hh : ∀ x, dma = some x → h < x.1 ∧ env.hint < x.1) {m : Msg} (hm : Modest (.req m.hdr m.body m.fds)) (k : Nat) :
    handleRequest cfg { env with hint := h } k st m = handleRequest cfg env k st m := by
  unfold handleRequest
  dsimp only
  rw [exec_hint ht hh hm]
  rfl

/-- C117: a call comes out the same whatever hint it finds. -/
theorem C117_call {cfg : Cfg} {dma : Option (Nat × Nat)} {st : St} (ht : TidyIf cfg dma st.dma) (hk : KeptGood Modest st) {op : Op}
    (hg : op.Good Modest) {h : Nat} (hh : ∀ x, dma = some x → h < x.1 ∧ op.hintIs (· < x.1)) :
    call cfg st (op.hinted h) = call cfg st op := by
  cases op with
  | run env i =>
    show poll cfg { env with hint := h } st i = poll cfg env st i
    unfold poll
    by_cases h1 : st.pending ≠ .none
    · rw [if_pos h1, if_pos h1]
    rw [if_neg h1, if_neg h1]
    by_cases h2 : st.conn = false
    · rw [if_pos h2, if_pos h2]
    rw [if_neg h2, if_neg h2]
    cases i with
    | req hd body fds =>
      dsimp only
      have hh1 := handle_hint (st := st) ht (env := env) hh (m := ⟨hd, body, fds⟩) hg 0
      have hh2 := handle_hint (st := { st with quiesced := true }) ht (env := env) hh (m := ⟨hd, body, fds⟩) hg 1
      unfold dispatch
      dsimp only
      rw [hh1, hh2]
      rfl
    | _ => rfl
  | quiesced env e =>
    show deviceQuiesced cfg { env with hint := h } st e = deviceQuiesced cfg env st e
    unfold deviceQuiesced
    by_cases h1 : cfg.hasQuiesce = false ∨ st.pending = .none
    · rw [if_pos h1, if_pos h1]
    rw [if_neg h1, if_neg h1]
    dsimp only
    cases hp : st.pending with
    | msg m =>
      dsimp only
      rw [handle_hint (st := { st with quiesced := true, pending := .msg m }) ht (env := env) hh (hk m hp) 0]
    | _ => rfl
  | transfer env l => rfl
  | _ => rfl

/-! ## The process -/

/-- What the process does next: a call on one of the devices; the hint is what the calls on all devices left in the variable of
the thread that makes it. -/
structure PStep where
  dev : Nat
  hint : Nat
  op : Op

/-- Calls in the order they are made, until one of them ends the process; the events with the device they belong to, and whether
the process survived. -/
def proc (cfg : Nat → Cfg) : (Nat → St) → List PStep → (Nat → St) × List (Nat × Ev) × Bool
  | s, [] => (s, [], true)
  | s, a :: l =>
    let o := call (cfg a.dev) (s a.dev) (a.op.hinted a.hint)
    let s' := fun i => if i = a.dev then o.st else s i
    if o.res.isFault = true then (s', o.evs.map (a.dev, ·), false)
    else
      let r := proc cfg s' l
      (r.1, (o.evs ++ [Ev.ret]).map (a.dev, ·) ++ r.2.1, r.2.2)

/-- The calls on one device. -/
def own (i : Nat) (l : List PStep) : List Op := (l.filter (fun a => a.dev == i)).map PStep.op

/-- The events of one device. -/
def evsOf (i : Nat) (l : List (Nat × Ev)) : List Ev := (l.filter (fun e => e.1 == i)).map Prod.snd

theorem evsOf_append (i : Nat) (l l' : List (Nat × Ev)) : evsOf i (l ++ l') = evsOf i l ++ evsOf i l' := by
  simp [evsOf]

theorem evsOf_same (i : Nat) (l : List Ev) : evsOf i (l.map (i, ·)) = l := by
  induction l with
  | nil => rfl
  | cons e l ih => simp [evsOf] at ih ⊢; exact ih

theorem evsOf_other {i j : Nat} (h : j ≠ i) (l : List Ev) : evsOf i (l.map (j, ·)) = [] := by
  induction l with
  | nil => rfl
  | cons e l ih => simp [evsOf, h] at ih ⊢

/-- What each device keeps. -/
structure Sound (cfg : Cfg) (dma : Option (Nat × Nat)) (st : St) : Prop where
  reached : Reached cfg dma st.dma st.irqs
  kept : KeptGood Modest st
  tidy : TidyIf cfg dma st.dma

/-- What is asked of a call on a device: its environment obeys the contracts, mappings and queries end below 2^64, and the hints
are indices into the table of regions. -/
structure Op.Decent (dma : Option (Nat × Nat)) (op : Op) : Prop where
  fair : op.Fair
  os : op.OSOk
  good : op.Good Modest
  hint : ∀ x, dma = some x → op.hintIs (· < x.1)

theorem Sound.call {cfg : Cfg} (hi : cfg.irq.Ok) (ht : TableOk cfg.tbl) {dma : Option (Nat × Nat)} {st : St} (h : Sound cfg dma st)
    {op : Op} (ho : op.Decent dma) (hno : (call cfg st op).res.isFault = false) : Sound cfg dma (call cfg st op).st where
  reached := (stable_reached cfg dma).kept.call h.reached op ho.os
  kept := ((closed_true cfg Modest).call st h.kept op ho.good).2
  tidy := by
    cases dma with
    | none =>
      obtain ⟨⟨_, _, h2⟩, _⟩ := (stable_reached cfg none).kept.call h.reached op ho.os
      exact h2
    | some x =>
      exact call_tidy hi ht h.reached (h.kept.mono (fun _ g => g.1)) h.tidy op ho.fair ho.os (ho.good.mono (fun _ g => g.1)) hno

theorem run_survive {cfg : Cfg} {st : St} {op : Op} {ops : List Op} (h : (call cfg st op).res.isFault = false) :
    run cfg st (op :: ops) = ((run cfg (call cfg st op).st ops).1, (call cfg st op).evs ++ .ret :: (run cfg (call cfg st op).st ops).2) := by
  conv_lhs => unfold run
  dsimp only
  rw [h]
  rfl

theorem own_same (a : PStep) (l : List PStep) : own a.dev (a :: l) = a.op :: own a.dev l := by simp [own]

theorem own_other {i : Nat} {a : PStep} (h : i ≠ a.dev) (l : List PStep) : own i (a :: l) = own i l := by
  have h : ¬a.dev = i := fun e => h e.symm
  simp [own, h]

/-- C117: whatever the order of the calls and whatever hints they find, the process survives if and only if every device would
survive alone with its calls, and then every device ends in the state, and has caused the events, that it would have alone. -/
theorem C117_apart {cfg : Nat → Cfg} {dma : Nat → Option (Nat × Nat)} (hi : ∀ i, (cfg i).irq.Ok) (ht : ∀ i, TableOk (cfg i).tbl)
    (l : List PStep) {s : Nat → St} (hs : ∀ i, Sound (cfg i) (dma i) (s i))
    (hl : ∀ a ∈ l, a.op.Decent (dma a.dev) ∧ ∀ x, dma a.dev = some x → a.hint < x.1) :
    ((proc cfg s l).2.2 = true ↔ ∀ i, Completes (cfg i) (s i) (own i l)) ∧
    ((proc cfg s l).2.2 = true → ∀ i, ((proc cfg s l).1 i, evsOf i (proc cfg s l).2.1) = run (cfg i) (s i) (own i l)) := by
  induction l generalizing s with
  | nil => exact ⟨⟨fun _ _ => trivial, fun _ => rfl⟩, fun _ _ => rfl⟩
  | cons a l ih =>
    obtain ⟨g1, g2⟩ := hl a (List.mem_cons_self ..)
    have hc : call (cfg a.dev) (s a.dev) (a.op.hinted a.hint) = call (cfg a.dev) (s a.dev) a.op :=
      C117_call (hs a.dev).tidy (hs a.dev).kept g1.good (fun x hx => ⟨g2 x hx, g1.hint x hx⟩)
    unfold proc
    dsimp only
    rw [hc]
    by_cases hf : (call (cfg a.dev) (s a.dev) a.op).res.isFault = true
    · rw [if_pos hf]
      refine ⟨⟨fun h => (by cases h), fun h => ?_⟩, fun h => (by cases h)⟩
      have h := h a.dev
      rw [own_same] at h
      rw [h.1] at hf
      cases hf
    · rw [if_neg hf]
      have hf : (call (cfg a.dev) (s a.dev) a.op).res.isFault = false := by
        cases h : (call (cfg a.dev) (s a.dev) a.op).res.isFault
        · rfl
        · exact absurd h hf
      dsimp only
      obtain ⟨i1, i2⟩ := ih (s := fun i => if i = a.dev then (call (cfg a.dev) (s a.dev) a.op).st else s i)
        (fun i => by
          by_cases h : i = a.dev
          · subst h; simp only [if_true]; exact (hs a.dev).call (hi _) (ht _) g1 hf
          · simp only [if_neg h]; exact hs i)
        (fun b hb => hl b (List.mem_cons_of_mem _ hb))
      refine ⟨i1.trans (forall_congr' fun i => ?_), fun h i => ?_⟩
      · by_cases h : i = a.dev
        · subst h
          rw [own_same, if_pos rfl]
          exact ⟨fun h => ⟨hf, h⟩, fun h => h.2⟩
        · rw [own_other h, if_neg h]
      · have hj := i2 h i
        have hj1 := congrArg Prod.fst hj
        have hj2 := congrArg Prod.snd hj
        dsimp only at hj1 hj2
        rw [hj1, evsOf_append, hj2]
        by_cases h : i = a.dev
        · subst h
          rw [own_same, run_survive hf, if_pos rfl, evsOf_same]
          simp
        · rw [own_other h, if_neg h, evsOf_other (fun e => h e.symm)]
          rfl

/-- C117: so what one device does depends on its own calls alone: in two processes in which its calls are the same, whatever is
asked of the other devices, it ends in the same state and its client and its callbacks see the same. -/
theorem C117_alone {cfg cfg' : Nat → Cfg} {dma dma' : Nat → Option (Nat × Nat)} (hi : ∀ i, (cfg i).irq.Ok)
    (ht : ∀ i, TableOk (cfg i).tbl) (hi' : ∀ i, (cfg' i).irq.Ok) (ht' : ∀ i, TableOk (cfg' i).tbl) {l l' : List PStep}
    {s s' : Nat → St} (hs : ∀ i, Sound (cfg i) (dma i) (s i)) (hs' : ∀ i, Sound (cfg' i) (dma' i) (s' i))
    (hl : ∀ a ∈ l, a.op.Decent (dma a.dev) ∧ ∀ x, dma a.dev = some x → a.hint < x.1)
    (hl' : ∀ a ∈ l', a.op.Decent (dma' a.dev) ∧ ∀ x, dma' a.dev = some x → a.hint < x.1)
    (hp : (proc cfg s l).2.2 = true) (hp' : (proc cfg' s' l').2.2 = true) {i : Nat} (h1 : cfg i = cfg' i) (h2 : s i = s' i)
    (h3 : own i l = own i l') :
    (proc cfg s l).1 i = (proc cfg' s' l').1 i ∧ evsOf i (proc cfg s l).2.1 = evsOf i (proc cfg' s' l').2.1 := by
  have a := (C117_apart hi ht l hs hl).2 hp i
  have b := (C117_apart hi' ht' l' hs' hl').2 hp' i
  rw [h1, h2, h3] at a
  exact ⟨congrArg Prod.fst (a.trans b.symm), congrArg Prod.snd (a.trans b.symm)⟩

/-- A device that was just set up. -/
theorem sound_init (cfg : Cfg) (mig : Bool) (dma : Option (Nat × Nat)) (pci : Pci.Pci) : Sound cfg dma (init cfg mig dma pci) where
  reached := ⟨⟨[], (fun op h => by cases h), rfl⟩, [], rfl⟩
  kept := fun m h => by cases h
  tidy := by
    cases dma with
    | none => rfl
    | some x => exact ⟨[], (fun op h => by cases h), rfl⟩

/-- C117: the device's own `vfu_addr_to_sgl` does not depend on the other devices either. -/
theorem C117_translate {cfg : Cfg} {x : Nat × Nat} {c : Dma.Ctl} {st : St} (h : Sound cfg (some x) st) (hd : st.dma = some c)
    {h1 h2 addr len max : Nat} {w : Bool} (g1 : h1 < x.1) (g2 : h2 < x.1) (hw : addr + len < U64) :
    (Dma.addrToSgl c h1 addr len max w).1 = (Dma.addrToSgl c h2 addr len max w).1 := by
  have ht : Tidy cfg x (some c) := hd ▸ h.tidy
  obtain ⟨dops, a1, a2⟩ := ht
  cases a2
  exact Dma.C06_hint_independent cfg.dma x.1 x.2 dops (fun op ho => (a1 op ho).2) h1 h2 addr len max w g1 g2 hw

/-! ## Cases -/

open Verif.Server.Demo

theorem mem_own {a : PStep} {l : List PStep} (h : a ∈ l) : a.op ∈ own a.dev l :=
  List.mem_map.mpr ⟨a, List.mem_filter.mpr ⟨h, by simp⟩, rfl⟩

theorem written_decent : ∀ op ∈ written, op.Decent (some (8, 2 ^ 40)) := by
  intro op hop
  obtain ⟨a1, a2, a3⟩ := written_talk.each op hop
  simp only [written, List.mem_cons, List.not_mem_nil, or_false] at hop
  rcases hop with rfl | rfl | rfl | rfl
  · exact ⟨a1, a2, trivial, fun x _ => trivial⟩
  · exact ⟨a1, a2, ⟨a3, fun h b f he => by cases he; exact ⟨(fun hc => by cases hc), (fun hc => by cases hc)⟩⟩, fun x hx => by
      cases hx; show (0 : Nat) < 8; decide⟩
  · exact ⟨a1, a2, ⟨a3, fun h b f he => by cases he; exact ⟨(fun hc => by cases hc), fun _ hc => absurd hc (by decide)⟩⟩, fun x hx => by
      cases hx; show (0 : Nat) < 8; decide⟩
  · exact ⟨a1, a2, trivial, fun x _ => trivial⟩

/-- Two devices with a client each; in whatever order their calls come, both see what each would have seen alone. -/
example (l : List PStep) (h0 : own 0 l = written) (h1 : own 1 l = written) (h2 : ∀ a ∈ l, a.dev < 2 ∧ a.hint < 8) :
    let r := proc (fun _ => cfg) (fun _ => init cfg true (some (8, 2 ^ 40)) pci) l
    r.2.2 = true ∧ evsOf 0 r.2.1 = (run cfg (init cfg true (some (8, 2 ^ 40)) pci) written).2 ∧ evsOf 1 r.2.1 = evsOf 0 r.2.1 := by
  have hh : ∀ i, own i l = written ∨ own i l = [] := by
    intro i
    match i with
    | 0 => exact .inl h0
    | 1 => exact .inl h1
    | i + 2 =>
      right
      unfold own
      rw [List.map_eq_nil_iff, List.filter_eq_nil_iff]
      intro a ha he
      have := (h2 a ha).1
      have he := beq_iff_eq.mp he
      omega
  obtain ⟨a, b⟩ := C117_apart (cfg := fun _ => cfg) (dma := fun _ => some (8, 2 ^ 40)) (fun _ => irq_ok) (fun _ => table_ok) l
    (s := fun _ => init cfg true (some (8, 2 ^ 40)) pci) (fun _ => sound_init _ _ _ _) (fun a ha => by
      refine ⟨written_decent _ ?_, fun x hx => by cases hx; exact (h2 a ha).2⟩
      have hm := mem_own ha
      rcases hh a.dev with e | e
      · rwa [e] at hm
      · rw [e] at hm; cases hm)
  have ok := a.mpr (fun i => by
    rcases hh i with e | e
    · rw [e]; exact written_talk.ends
    · rw [e]; trivial)
  have e0 := congrArg Prod.snd (b ok 0)
  have e1 := congrArg Prod.snd (b ok 1)
  dsimp only at e0 e1
  rw [h0] at e0
  rw [h1] at e1
  exact ⟨ok, e0, e1.trans e0.symm⟩

/-- C117 without the bound on queries: whether a report that runs past 2^64 is refused or ends the process depends on the hint,
that is, on what the other devices translated last. -/
theorem C117_hint_decides :
    let l (h : Nat) : List PStep := (logging 4096).map (⟨0, 0, ·⟩) ++
      [⟨0, h, .run env (req 5 16 0 (query 0x100000 (2 ^ 64 - 0x100000) (2 ^ 62)) [])⟩]
    (proc (fun _ => dev) (fun _ => fresh) (l 0)).2.2 = false ∧ (proc (fun _ => dev) (fun _ => fresh) (l 1)).2.2 = true :=
  ⟨by decide +kernel, by decide +kernel⟩

/-- C117: a device whose client brings the server down takes the others with it. -/
theorem C117_shared_fate :
    let l : List PStep := [⟨0, 0, hello⟩, ⟨1, 0, hello⟩, ⟨0, 0, .run env (req 5 3 0 [0#8] [])⟩,
      ⟨1, 0, .run env (req 7 4 0 (enc 4 16 ++ enc 4 0 ++ enc 4 0 ++ enc 4 0) [])⟩]
    Completes dev fresh (own 1 l) ∧ (run dev fresh (own 1 l)).2.length > 2 ∧ (proc (fun _ => dev) (fun _ => fresh) l).2.2 = false ∧
    (evsOf 1 (proc (fun _ => dev) (fun _ => fresh) l).2.1).length = 1 :=
  ⟨⟨by decide +kernel, by decide +kernel, trivial⟩, by decide +kernel, by decide +kernel, by decide +kernel⟩

end Verif.Server
