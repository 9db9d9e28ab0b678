import Verif.Server.Asked
import Verif.Server.Flr

/-!
# C92: the device hears only what the client asked for

Every callback of the device has a cause: the library wants it to quiesce, the request that is being executed asks for it, or
the client is gone. -/

namespace Verif.Pci
open Verif

/-- The accesses the device is asked to serve lie in the range `count` bytes at `off`, and carry the bytes `buf` has there; only
a write resets the function. -/
def Within (write : Bool) (buf : List Byte) (off count : Nat) : Ev → Prop
  | .cb o b w => w = write ∧ ∃ i, o = off + i ∧ i + b.length ≤ count ∧ (w = true → b = (buf.drop i).take b.length)
  | .flr => write = true

theorem capWrite_cb {dev : Dev} {alloc : Nat} {m : Mem} {c : Cap} {buf : List Byte} {count off : Nat} {o : Nat} {b : List Byte}
    {w : Bool} : Ev.cb o b w ∉ (capWrite dev alloc m c buf count off).2.2 := by
  intro h
  unfold capWrite at h
  by_cases h1 : c.off + c.size > alloc
  · rw [if_pos h1] at h; simp at h
  rw [if_neg h1] at h
  by_cases h2 : c.ext = true
  · rw [if_pos h2] at h
    by_cases h3 : c.id = EXT_DSN
    · rw [if_pos h3] at h; simp at h
    rw [if_neg h3] at h
    by_cases h4 : off + count > alloc
    · rw [if_pos h4] at h; simp at h
    · rw [if_neg h4] at h; simp at h
  rw [if_neg h2] at h
  by_cases h3 : c.id = ID_PM
  · rw [if_pos h3] at h; simp at h
  rw [if_neg h3] at h
  by_cases h4 : c.id = ID_EXP
  · rw [if_pos h4] at h
    unfold writePx at h
    by_cases h5 : count ≠ 2
    · rw [if_pos h5] at h; simp at h
    rw [if_neg h5] at h
    by_cases h6 : off - c.off = 8
    · rw [if_pos h6] at h
      revert h
      unfold writePxdc
      dsimp only
      generalize setFields _ _ _ _ = x
      generalize wrM _ _ _ = y
      intro h
      split_ifs at h
      · simp at h
      · cases hr : dev.reset with
        | none => rw [hr] at h; simp at h
        | some r =>
          rw [hr] at h
          dsimp only at h
          cases hx : (r x).2 <;> rw [hx] at h <;> simp at h
      · simp at h
    rw [if_neg h6] at h
    split_ifs at h <;> simp at h
  rw [if_neg h4] at h
  split_ifs at h <;> simp at h

theorem serve_within {dev : Dev} {p : Pci} {o : Owner} {m : Mem} {buf : List Byte} {count off : Nat} {write : Bool} :
    ∀ e ∈ (serve dev p o m buf count off write).evs, Within write buf off count e := by
  intro e he
  cases e with
  | flr => exact (serve_flr he).2.1
  | cb o' b w =>
    have hro : ∀ n, Ev.cb o' b w ∉ (readOut p m n off).evs := by
      intro n
      unfold readOut
      split_ifs <;> simp
    have hns : Ev.cb o' b w ∈ (nonstd dev p m buf count off write).evs → Within write buf off count (.cb o' b w) := by
      unfold nonstd
      cases dev.cb with
      | some cb =>
        intro h
        simp only [List.mem_singleton, Ev.cb.injEq] at h
        obtain ⟨rfl, rfl, rfl⟩ := h
        refine ⟨rfl, 0, rfl, ?_, ?_⟩
        · cases w <;> simp
        · rintro rfl; simp
      | none =>
        dsimp only
        intro h
        split_ifs at h
        · cases h
        · exact absurd h (hro _)
    unfold serve at he
    cases o with
    | hdr =>
      exfalso
      dsimp only at he
      unfold hdrAccess at he
      by_cases h1 : count > 64
      · rw [if_pos h1] at he; simp at he
      rw [if_neg h1] at he
      cases write with
      | true =>
        rw [if_pos rfl] at he
        cases hw : (hdrWrite p.bar m buf off).2 <;> rw [hw] at he <;> simp at he
      | false => exact hro _ he
    | dflt => exact hns he
    | cap =>
      dsimp only at he
      unfold capAccess at he
      cases hf : capFind p off count with
      | none => rw [hf] at he; simp at he
      | some c =>
        rw [hf] at he
        dsimp only at he
        by_cases h1 : off < c.off ∨ count > c.size
        · rw [if_pos h1] at he; simp at he
        rw [if_neg h1] at he
        by_cases h2 : write = true ∧ c.ro = true
        · rw [if_pos h2] at he; simp at he
        rw [if_neg h2] at he
        by_cases h3 : c.cbk = true
        · rw [if_pos h3] at he; exact hns he
        rw [if_neg h3] at he
        by_cases h4 : write = false
        · rw [if_pos h4] at he; exact absurd he (hro _)
        rw [if_neg h4] at he
        by_cases h5 : off - c.off < c.hdr
        · rw [if_pos h5] at he; simp at he
        rw [if_neg h5] at he
        exfalso
        exact capWrite_cb he

theorem loop_within {dev : Dev} {p : Pci} (hb : Bounded p) (write : Bool) :
    ∀ (fuel : Nat) (m : Mem) (buf : List Byte) (count off done : Nat), off + count < U64 →
      ∀ e ∈ (loop dev p write fuel m buf count off done).evs, Within write buf off count e := by
  intro fuel
  induction fuel with
  | zero => intro m buf count off done _ e h; simp [loop] at h
  | succ fuel ih =>
    intro m buf count off done hlt e h
    unfold loop at h
    by_cases h0 : count = 0
    · rw [if_pos h0] at h; simp at h
    rw [if_neg h0] at h
    cases hs : nextSegment p count off write with
    | none => rw [hs] at h; simp at h
    | some x =>
      obtain ⟨o, size⟩ := x
      rw [hs] at h
      dsimp only at h
      obtain ⟨_, hle, _, _, _⟩ := nextSegment_spec hb (by omega) hlt hs
      have here : e ∈ (serve dev p o m buf size off write).evs → Within write buf off count e := by
        intro hf
        have := serve_within e hf
        cases e with
        | flr => exact this
        | cb o' b w =>
          obtain ⟨g1, i, g2, g3, g4⟩ := this
          exact ⟨g1, i, g2, by omega, g4⟩
      cases hr : (serve dev p o m buf size off write).ret with
      | err e => rw [hr] at h; exact here h
      | fault f => rw [hr] at h; exact here h
      | ok n =>
        rw [hr] at h
        dsimp only at h
        by_cases h1 : n = 0
        · rw [if_pos h1] at h; exact here h
        rw [if_neg h1] at h
        by_cases h2 : n > size
        · rw [if_pos h2] at h; exact here h
        rw [if_neg h2] at h
        rcases List.mem_append.mp h with h | h
        · exact here h
        · have := ih _ _ _ _ _ (by omega) e h
          cases e with
          | flr => exact this
          | cb o' b w =>
            obtain ⟨g1, i, g2, g3, g4⟩ := this
            refine ⟨g1, n + i, by omega, by omega, fun hw => ?_⟩
            rw [← List.drop_drop]
            exact g4 hw

end Verif.Pci

namespace Verif.Server
open Verif
open Verif.Dma (Fd)

/-! ## What a request asks for -/

/-- The request `m` asks for the callback.  Offsets of the fields: DMA map and unmap `lib/libvfio-user.c:686-870`; region access
`lib/libvfio-user.c:277-329`; interrupts `lib/irq.c:374-422`; migration data `lib/migration.c:286-407`. -/
def Prompts (m : Msg) : Call → Prop
  | .quiesce _ => False
  | .dmaRegister i => m.hdr.cmd = 2 ∧ i.base = leAt m.body 16 8 ∧ i.len = leAt m.body 24 8
  | .dmaUnregister i => m.hdr.cmd = 3 ∧ (leAt m.body 4 4 = 2 ∨ i.base = leAt m.body 8 8 ∧ i.len = leAt m.body 16 8)
  | .reset .device => m.hdr.cmd = 13
  | .reset .flr => m.hdr.cmd = 10 ∧ leAt m.body 8 4 = 7
  | .reset .lostConn => False
  | .migState _ => m.setsState
  | .migData (.read n _) => m.hdr.cmd = 17 ∧ n = leAt m.body 4 4
  | .migData (.write d) => m.hdr.cmd = 18 ∧ d = (m.body.drop 8).take (leAt m.body 4 4)
  | .region r off buf w => m.hdr.cmd = (if w then 10 else 9) ∧ r = leAt m.body 8 4 ∧
      ∃ i, off = leAt m.body 0 8 + i ∧ i + buf.length ≤ leAt m.body 12 4 ∧
        (w = true → buf = ((m.body.drop 16).drop i).take buf.length)
  | .irqState i s c k => m.hdr.cmd = 8 ∧ i = leAt m.body 8 4 ∧ s = leAt m.body 12 4 ∧ c = leAt m.body 16 4 ∧
      leAt m.body 4 4 &&& 0x38 = if k then 8 else 16

theorem mem_calls {c : Call} {l : List Ev} : c ∈ calls l ↔ ∃ q, Ev.call c q ∈ l := by
  unfold calls
  rw [List.mem_filterMap]
  constructor
  · rintro ⟨e, h1, h2⟩
    cases e <;> first | cases h2; done | skip
    cases h2
    exact ⟨_, h1⟩
  · rintro ⟨q, h⟩
    exact ⟨_, h, rfl⟩

theorem calls_flatMap {α : Type} {f : α → List Ev} {l : List α} {c : Call} (h : c ∈ calls (l.flatMap f)) :
    ∃ x ∈ l, c ∈ calls (f x) := by
  obtain ⟨q, hq⟩ := mem_calls.mp h
  obtain ⟨x, hx, h1⟩ := List.mem_flatMap.mp hq
  exact ⟨x, hx, mem_calls.mpr ⟨q, h1⟩⟩

theorem calls_ofDma {q : Bool} {l : List Dma.Ev} {c : Call} (h : c ∈ calls (l.flatMap (ofDma q))) :
    (∃ i, c = .dmaRegister i ∧ .register i ∈ l) ∨ ∃ i, c = .dmaUnregister i ∧ .unregister i ∈ l := by
  obtain ⟨x, hx, hc⟩ := calls_flatMap h
  cases x with
  | register i => exact .inl ⟨i, by simpa [calls, ofDma, bracket] using hc, hx⟩
  | unregister i => exact .inr ⟨i, by simpa [calls, ofDma, bracket] using hc, hx⟩
  | mmap b l => cases hc
  | munmap b l => cases hc
  | close fd => cases hc

theorem dropEvs_mem {u : Bool} {r : Dma.Region} {e : Dma.Ev} (h : e ∈ Dma.dropEvs u r) :
    (∀ i, e ≠ .register i) ∧ ∀ i, e = .unregister i → i = r.info := by
  unfold Dma.dropEvs at h
  rcases List.mem_append.mp h with h | h
  · cases u with
    | false => cases h
    | true =>
      cases List.mem_singleton.mp h
      exact ⟨(fun i h => by cases h), fun i h => by cases h; rfl⟩
  · cases hf : r.fd with
    | none => rw [hf] at h; cases h
    | some x =>
      rw [hf] at h
      simp only [List.mem_cons, List.not_mem_nil, or_false] at h
      rcases h with rfl | rfl <;> exact ⟨(fun i h => by cases h), fun i h => by cases h⟩

/-- The DMA callbacks of a map request. -/
theorem handleMap_mem (os : Dma.OS) (hasReg : Bool) (c : Dma.Ctl) (q : Dma.MapReq) {e : Dma.Ev}
    (h : e ∈ (Dma.handleMap os hasReg c q).evs) :
    (∀ i, e ≠ .unregister i) ∧ ∀ i, e = .register i → i.base = q.addr ∧ i.len = q.size := by
  have hc : ∀ o : Option Fd, e ∈ Dma.closeEv o → (∀ i, e ≠ .unregister i) ∧ ∀ i, e ≠ .register i := by
    intro o h
    cases o with
    | none => cases h
    | some x =>
      cases List.mem_singleton.mp h
      exact ⟨(fun i h => by cases h), fun i h => by cases h⟩
  have hreg : ∀ r : Dma.Region, r.info.base = q.addr → r.info.len = q.size → e ∈ (if hasReg then [Dma.Ev.register r.info] else []) →
      (∀ i, e ≠ .unregister i) ∧ ∀ i, e = .register i → i.base = q.addr ∧ i.len = q.size := by
    intro r h1 h2 h
    cases hasReg with
    | false => cases h
    | true =>
      cases List.mem_singleton.mp h
      exact ⟨(fun i h => by cases h), fun i h => by cases h; exact ⟨h1, h2⟩⟩
  have hx := Dma.handleMap_case os hasReg c q
  revert h hx
  generalize Dma.handleMap os hasReg c q = o
  intro h hx
  cases hx with
  | flags => cases h
  | fail x ev _ _ hev =>
    rcases List.mem_append.mp h with h | h
    · rcases hev with rfl | ⟨x, _, rfl⟩
      · cases h
      · cases List.mem_singleton.mp h
        exact ⟨(fun i h => by cases h), fun i h => by cases h⟩
    · exact ⟨(hc _ h).1, fun i hi => absurd hi ((hc _ h).2 i)⟩
  | again idx r _ _ h1 h2 _ _ _ _ => exact hreg r h1 h2 h
  | new r _ _ _ _ hn _ =>
    rcases List.mem_append.mp h with h | h
    · split_ifs at h
      · cases h
      · cases List.mem_singleton.mp h
        exact ⟨(fun i h => by cases h), fun i h => by cases h⟩
    · exact hreg r hn.hbase hn.hlen h

/-- The DMA callbacks of an unmap request. -/
theorem handleUnmap_mem (a u : Bool) (c : Dma.Ctl) (addr size : Nat) (k : Dma.UnmapKind) {e : Dma.Ev}
    (h : e ∈ (Dma.handleUnmap a u c addr size k).2.2) :
    (∀ i, e ≠ .register i) ∧ ∀ i, e = .unregister i → k = .all ∨ i.base = addr ∧ i.len = size := by
  have hx := Dma.handleUnmap_case a u c addr size k
  revert h hx
  generalize Dma.handleUnmap a u c addr size k = o
  intro h hx
  cases hx with
  | removed c1 l1 l2 r b _ _ _ _ _ _ h1 h2 _ _ =>
    exact ⟨(dropEvs_mem h).1, fun i hi => .inr (by rw [(dropEvs_mem h).2 i hi]; exact ⟨h1, h2⟩)⟩
  | cleared hk =>
    obtain ⟨r, _, hr⟩ := List.mem_flatMap.mp h
    exact ⟨(dropEvs_mem hr).1, fun i _ => .inl hk⟩
  | enoent => cases h
  | nomem => cases h
  | dirtyFail => cases h
  | assert => cases h

/-! ## Interrupts -/

theorem closeSlot_state {st st' : Irq.Irqs} {s : Irq.Slot} {l : List Irq.Ev} (h : Irq.closeSlot st s = .ok (st', l)) :
    ∀ e ∈ l, ∀ i s c m, e ≠ .state i s c m := by
  unfold Irq.closeSlot at h
  rcases hg : st.get s with _ | _ | fd <;> rw [hg] at h <;> simp only [Res.ok.injEq, Prod.mk.injEq, reduceCtorEq] at h
  · rw [← h.2]; exact fun e he => by cases he
  · rw [← h.2]
    intro e he
    cases List.mem_singleton.mp he
    intro _ _ _ _ h
    cases h

theorem disableLoop_state (index : Nat) : ∀ (n i : Nat) (st st' : Irq.Irqs) (l : List Irq.Ev),
    Irq.disableLoop index n i st = .ok (st', l) → ∀ e ∈ l, ∀ i s c m, e ≠ .state i s c m := by
  intro n
  induction n with
  | zero =>
    intro i st st' l h e he
    simp only [Irq.disableLoop, Res.ok.injEq, Prod.mk.injEq] at h
    rw [← h.2] at he; cases he
  | succ n ih =>
    intro i st st' l h
    unfold Irq.disableLoop at h
    cases h1 : Irq.disableSlot index i with
    | none => rw [h1] at h; cases h
    | some s =>
      rw [h1] at h
      dsimp only at h
      cases h2 : Irq.closeSlot st s with
      | err e => rw [h2] at h; cases h
      | fault f => rw [h2] at h; cases h
      | ok x =>
        rw [h2] at h
        dsimp only at h
        cases h3 : Irq.disableLoop index n (i + 1) x.1 with
        | err e => rw [h3] at h; cases h
        | fault f => rw [h3] at h; cases h
        | ok y =>
          rw [h3] at h
          simp only [Res.ok.injEq, Prod.mk.injEq] at h
          rw [← h.2]
          intro e he
          rcases List.mem_append.mp he with he | he
          · exact closeSlot_state h2 e he
          · exact ih _ _ _ _ h3 e he

theorem disable_state {cfg : Irq.Cfg} {st st' : Irq.Irqs} {i s c : Nat} {l : List Irq.Ev}
    (h : Irq.disable cfg st i s c = .ok (st', l)) : ∀ e ∈ l, ∀ i s c m, e ≠ .state i s c m := by
  unfold Irq.disable at h
  by_cases h1 : i ≥ Irq.NUM_IRQS
  · rw [if_pos h1] at h; cases h
  rw [if_neg h1] at h
  by_cases h2 : add32 s c > cfg.cnt i
  · rw [if_pos h2] at h; cases h
  rw [if_neg h2] at h
  exact disableLoop_state _ _ _ _ _ _ h

theorem resetLoop_state : ∀ (n i : Nat) (st st' : Irq.Irqs) (l : List Irq.Ev),
    Irq.resetLoop n i st = .ok (st', l) → ∀ e ∈ l, ∀ i s c m, e ≠ .state i s c m := by
  intro n
  induction n with
  | zero =>
    intro i st st' l h e he
    simp only [Irq.resetLoop, Res.ok.injEq, Prod.mk.injEq] at h
    rw [← h.2] at he; cases he
  | succ n ih =>
    intro i st st' l h
    unfold Irq.resetLoop at h
    cases h2 : Irq.closeSlot st (.vec i) with
    | err e => rw [h2] at h; cases h
    | fault f => rw [h2] at h; cases h
    | ok x =>
      rw [h2] at h
      dsimp only at h
      cases h3 : Irq.resetLoop n (i + 1) x.1 with
      | err e => rw [h3] at h; cases h
      | fault f => rw [h3] at h; cases h
      | ok y =>
        rw [h3] at h
        simp only [Res.ok.injEq, Prod.mk.injEq] at h
        rw [← h.2]
        intro e he
        rcases List.mem_append.mp he with he | he
        · exact closeSlot_state h2 e he
        · exact ih _ _ _ _ h3 e he

theorem reset_state {cfg : Irq.Cfg} {st st' : Irq.Irqs} {l : List Irq.Ev} (h : Irq.reset cfg st = .ok (st', l)) :
    ∀ e ∈ l, ∀ i s c m, e ≠ .state i s c m := by
  unfold Irq.reset at h
  cases h1 : Irq.disable cfg st Irq.REQ 0 0 with
  | err e => rw [h1] at h; cases h
  | fault f => rw [h1] at h; cases h
  | ok x =>
    rw [h1] at h
    dsimp only at h
    cases h2 : Irq.disable cfg x.1 Irq.ERR 0 0 with
    | err e => rw [h2] at h; cases h
    | fault f => rw [h2] at h; cases h
    | ok y =>
      rw [h2] at h
      dsimp only at h
      cases h3 : Irq.resetLoop y.1.efds.length 0 y.1 with
      | err e => rw [h3] at h; cases h
      | fault f => rw [h3] at h; cases h
      | ok z =>
        rw [h3] at h
        simp only [Res.ok.injEq, Prod.mk.injEq] at h
        rw [← h.2]
        intro e he
        rcases List.mem_append.mp he with he | he
        · rcases List.mem_append.mp he with he | he
          · exact disable_state h1 e he
          · exact disable_state h2 e he
        · exact resetLoop_state _ _ _ _ _ h3 e he

theorem signalLoop_state (index : Nat) (wr : Nat → Option Nat) (st : Irq.Irqs) : ∀ (sel : List Bool) (i k : Nat),
    ∀ e ∈ (Irq.signalLoop index wr sel i k st).2, ∀ i s c m, e ≠ .state i s c m := by
  intro sel
  induction sel with
  | nil => intro i k e he; cases he
  | cons b sel ih =>
    intro i k
    unfold Irq.signalLoop
    rcases st.get (Irq.efdSlot index i) with _ | _ | fd
    · exact fun e he => by cases he
    · exact ih _ _
    · dsimp only
      cases b with
      | false => exact ih _ _
      | true =>
        rw [if_pos rfl]
        cases wr k with
        | some x => exact fun e he => by cases he
        | none =>
          intro e he
          rcases List.mem_cons.mp he with rfl | he
          · intro _ _ _ _ h; cases h
          · exact ih _ _ e he

theorem bindLoop_state (index count : Nat) : ∀ (n i j : Nat) (st st' : Irq.Irqs) (fds fds' : List (Option Fd)) (l : List Irq.Ev),
    Irq.bindLoop index count n i j st fds = .ok (st', fds', l) → ∀ e ∈ l, ∀ i s c m, e ≠ .state i s c m := by
  intro n
  induction n with
  | zero =>
    intro i j st st' fds fds' l h e he
    simp only [Irq.bindLoop, Res.ok.injEq, Prod.mk.injEq] at h
    rw [← h.2.2] at he; cases he
  | succ n ih =>
    intro i j st st' fds fds' l h
    unfold Irq.bindLoop at h
    cases h2 : Irq.closeSlot st (Irq.efdSlot index i) with
    | err e => rw [h2] at h; cases h
    | fault f => rw [h2] at h; cases h
    | ok x =>
      rw [h2] at h
      dsimp only at h
      rcases h4 : fds[j]? with _ | _ | fd <;> rw [h4] at h
      · cases h
      · cases h
      dsimp only at h
      cases h3 : Irq.bindLoop index count n (i + 1) (j + 1) (x.1.put (Irq.efdSlot index i) (if j < count then some fd else none))
            (if j < count then fds.set j none else fds) with
      | err e => rw [h3] at h; cases h
      | fault f => rw [h3] at h; cases h
      | ok y =>
        rw [h3] at h
        simp only [Res.ok.injEq, Prod.mk.injEq] at h
        rw [← h.2.2]
        intro e he
        rcases List.mem_append.mp he with he | he
        · exact closeSlot_state h2 e he
        · exact ih _ _ _ _ _ _ _ h3 e he

/-- The callback of an interrupt request: the index and the range are those of the request, and the action is. -/
theorem handleSet_mem (cfg : Irq.Cfg) (wr : Nat → Option Nat) (st : Irq.Irqs) (body : List Byte) (fds : List (Option Fd))
    {i s c : Nat} {k : Bool} (h : Irq.Ev.state i s c k ∈ (Irq.handleSet cfg wr st body fds).evs) :
    i = leAt body 8 4 ∧ s = leAt body 12 4 ∧ c = leAt body 16 4 ∧ leAt body 4 4 &&& 0x38 = if k then 8 else 16 := by
  revert h
  unfold Irq.handleSet
  cases Irq.validate cfg body fds.length with
  | err e => exact fun h => by cases h
  | fault e => exact fun h => by cases h
  | ok u =>
    dsimp only
    generalize hq : Irq.Req.ofBytes body = q
    by_cases h1 : q.action = Irq.ACT_MASK ∨ q.action = Irq.ACT_UNMASK
    · rw [if_pos h1]
      unfold Irq.setState
      by_cases h2 : q.index ≥ Irq.NUM_IRQS
      · rw [if_pos h2]; exact fun h => by cases h
      rw [if_neg h2]
      by_cases h3 : cfg.hasCb q.index = false
      · rw [if_pos h3]; exact fun h => by cases h
      rw [if_neg h3]
      by_cases h4 : add32 q.start q.count > cfg.cnt q.index
      · rw [if_pos h4]; exact fun h => by cases h
      rw [if_neg h4]
      by_cases h5 : q.action &&& Irq.ACT_MASK = 0 ∧ q.action &&& Irq.ACT_UNMASK = 0
      · rw [if_pos h5]; exact fun h => by cases h
      rw [if_neg h5]
      intro h
      have := List.mem_singleton.mp h
      simp only [Irq.Ev.state.injEq] at this
      obtain ⟨rfl, rfl, rfl, hk⟩ := this
      subst hq
      refine ⟨rfl, rfl, rfl, ?_⟩
      rcases h1 with h1 | h1
      · rw [h1] at hk
        rw [show k = true by rw [hk]; decide]
        exact h1
      · rw [h1] at hk
        rw [show k = false by rw [hk]; decide]
        exact h1
    rw [if_neg h1]
    by_cases h2 : Irq.isDisable q fds.length = true
    · rw [if_pos h2]
      cases h3 : Irq.disable cfg st q.index q.start q.count with
      | err e => exact fun h => by cases h
      | fault e => exact fun h => by cases h
      | ok x => exact fun h => absurd rfl (disable_state (st' := x.1) (l := x.2) h3 _ h i s c k)
    rw [if_neg h2]
    by_cases h3 : q.data = Irq.DATA_NONE
    · rw [if_pos h3]
      exact fun h => absurd rfl (signalLoop_state _ _ _ _ _ _ _ h i s c k)
    rw [if_neg h3]
    by_cases h4 : q.data = Irq.DATA_EVENTFD
    · rw [if_pos h4]
      cases h5 : Irq.bindLoop q.index q.count (add32 q.start q.count - q.start) q.start 0 st fds with
      | err e => exact fun h => by cases h
      | fault e => exact fun h => by cases h
      | ok x => exact fun h => absurd rfl (bindLoop_state _ _ _ _ _ _ x.1 _ x.2.1 x.2.2 h5 _ h i s c k)
    rw [if_neg h4]
    by_cases h5 : q.data = Irq.DATA_BOOL
    · rw [if_pos h5]
      unfold Irq.dataBool
      dsimp only
      by_cases h6 : body.length < 20 + (add32 q.start q.count - q.start)
      · rw [if_pos h6]; exact fun h => by cases h
      · rw [if_neg h6]; exact fun h => absurd rfl (signalLoop_state _ _ _ _ _ _ _ h i s c k)
    · rw [if_neg h5]; exact fun h => by cases h

/-! ## Migration data -/

theorem dataRead_mem {alloc : Bool} {cb : Nat → Mig.ReadCb} {mig : Option Nat} {mx : Nat} {body : List Byte} {x : Mig.DataEv}
    (h : x ∈ (Mig.dataRead alloc cb mig mx body).2) : x = .read (leAt body 4 4) (body.length + leAt body 4 4 - 8) := by
  by_cases ha : Mig.ReadAllowed mig mx body
  swap
  · rw [Mig.C23_read_refused _ _ _ _ _ ha] at h; cases h
  unfold Mig.dataRead at h
  cases mig with
  | none => split_ifs at h <;> cases h
  | some n =>
    dsimp only at h
    cases hcb : cb (leAt body 4 4) with
    | err e =>
      rw [hcb] at h
      split_ifs at h
      all_goals first | (cases h; done) | exact List.mem_singleton.mp h
    | ret n d =>
      rw [hcb] at h
      split_ifs at h
      all_goals first | (cases h; done) | exact List.mem_singleton.mp h

theorem dataWrite_mem {cb : List Byte → Except Nat Nat} {mig : Option Nat} {mx : Nat} {body : List Byte} {x : Mig.DataEv}
    (h : x ∈ (Mig.dataWrite cb mig mx body).2) : x = .write ((body.drop 8).take (leAt body 4 4)) := by
  by_cases ha : Mig.WriteAllowed mig mx body
  · obtain ⟨d, _, rfl, h2, _⟩ := Mig.C23_write_call cb mig mx body ha
    rw [h2] at h
    exact List.mem_singleton.mp h
  · rw [Mig.C23_write_refused _ _ _ _ ha] at h; cases h

/-! ## Region accesses -/

section
variable {cfg : Cfg} {p : Pci.Pci} (hsz : ∀ r ∈ cfg.tbl, r.size < U32) (hl : LayoutOk cfg.tbl p)
include hsz hl

theorem access_prompts {env : Env} {st : St} {w : Bool} {m : Msg} (hc : m.hdr.cmd = if w then 10 else 9)
    (hp : layout st.pci = layout p) : ∀ c ∈ calls (access cfg env st w m.body m.fds).evs, Prompts m c := by
  have hl' := layoutOk_congr hp hl
  have hnil : ∀ c ∈ calls ([] : List Ev), Prompts m c := fun c h => by cases h
  unfold access
  dsimp only [Done.pure]
  generalize hg : handlers cfg env st.pci = hd
  unfold Region.handleAccess
  by_cases h0 : m.body = []
  · rw [if_pos h0]; exact hnil
  rw [if_neg h0]
  by_cases hv : Region.validAccess cfg.tbl (stopCopy st.mig) w m.body = false
  · rw [if_pos hv]; exact hnil
  rw [if_neg hv]
  obtain ⟨r, ho⟩ := (Region.validAccess_iff hsz _ _ _).1 (by simpa using hv)
  dsimp only
  by_cases h1 : leAt m.body 12 4 = 0
  · rw [if_pos h1]; exact hnil
  rw [if_neg h1]
  by_cases h2 : env.alloc = false
  · rw [if_pos h2]; exact hnil
  rw [if_neg h2, ho.region]
  dsimp only
  have hlen : (if w = true then m.body.drop 16 else List.replicate (leAt m.body 12 4) 0#8).length = leAt m.body 12 4 := by
    cases w with
    | true =>
      have := ho.payload rfl
      simp only [if_true, List.length_drop]; omega
    | false => simp
  have key : ∀ c ∈ calls (afterCalls cfg env st.quiesced st.pci (Region.regionAccess hd r (leAt m.body 8 4)
      (if w = true then m.body.drop 16 else List.replicate (leAt m.body 12 4) 0#8) (leAt m.body 0 8) w).2.2).2, Prompts m c := by
    unfold Region.regionAccess
    by_cases hcf : leAt m.body 8 4 = Region.CFG_IDX ∧ r.flags &&& Region.FLAG_ALWAYS_CB = 0
    · rw [if_pos hcf]
      have h7 : leAt m.body 8 4 = 7 := hcf.1
      dsimp only [afterCalls]
      rw [List.append_nil, hlen]
      have hin : leAt m.body 0 8 + leAt m.body 12 4 < U64 := by
        have h1 := ho.bound
        have h2 := hsz r (List.mem_of_getElem? ho.region)
        simp only [U32] at h2
        simp only [U64]
        omega
      intro c hcl
      obtain ⟨x, hx, hcx⟩ := calls_flatMap hcl
      have hw := Pci.loop_within hl'.bounded w _ _ _ _ _ _ hin x hx
      cases x with
      | flr =>
        have hw : w = true := hw
        subst hw
        have : c = .reset .flr := by simpa [calls, ofPci, bracket] using hcx
        rw [this]
        exact ⟨hc, h7⟩
      | cb o b w' =>
        obtain ⟨rfl, i, g2, g3, g4⟩ := hw
        have : c = .region Region.CFG_IDX o b w' := by simpa [calls, ofPci, bracket] using hcx
        rw [this]
        refine ⟨hc, h7.symm, i, g2, g3, fun hw => ?_⟩
        have := g4 hw
        rw [if_pos hw] at this
        exact this
    · rw [if_neg hcf]
      by_cases hcb : r.hasCb = false
      · rw [if_pos hcb]; exact hnil
      · rw [if_neg hcb]
        intro c hcl
        dsimp only [afterCalls] at hcl
        have e : c = Call.region (leAt m.body 8 4) (leAt m.body 0 8)
          (if w = true then m.body.drop 16 else List.replicate (leAt m.body 12 4) 0#8) w := by simpa [calls] using hcl
        rw [e]
        refine ⟨hc, rfl, 0, (Nat.add_zero _).symm, ?_, fun hw => ?_⟩
        · rw [hlen]; omega
        · rw [if_pos hw, List.drop_zero, List.take_length]
  generalize Region.regionAccess hd r (leAt m.body 8 4)
      (if w = true then m.body.drop 16 else List.replicate (leAt m.body 12 4) 0#8) (leAt m.body 0 8) w = o at key
  obtain ⟨ret, b, cs⟩ := o
  cases ret with
  | ok n => dsimp only; split_ifs <;> exact key
  | err e => exact key
  | fault f => exact key

/-- A request that is executed calls the device for what it asks. -/
theorem exec_prompts {env : Env} {st : St} {m : Msg} (hp : layout st.pci = layout p) :
    ∀ c ∈ calls (exec cfg env st m).evs, Prompts m c := by
  have hnil : ∀ c ∈ calls ([] : List Ev), Prompts m c := fun c h => by cases h
  refine exec_elim (P := fun d => ∀ c ∈ calls d.evs, Prompts m c) cfg env st m ?_ ?_ ?_ ?_ ?_ ?_ ?_ ?_ ?_ ?_ ?_ ?_ ?_ ?_ ?_
  · exact fun _ _ => hnil
  · intro c hc _
    refine dmaMap_elim (P := fun d => ∀ c ∈ calls d.evs, Prompts m c) cfg env st c _ _ (fun _ _ => hnil) ?_
    rintro o rfl x hx
    rcases calls_ofDma hx with ⟨i, rfl, hi⟩ | ⟨i, rfl, hi⟩
    · exact ⟨hc, (handleMap_mem _ _ _ _ hi).2 i rfl⟩
    · exact absurd rfl ((handleMap_mem _ _ _ _ hi).1 i)
  · intro c hc _
    refine dmaUnmap_elim (P := fun d => ∀ c ∈ calls d.evs, Prompts m c) cfg env st c _ _ (fun _ _ => hnil) ?_
    intro r l _ _ x hx
    rcases calls_ofDma hx with ⟨i, rfl, hi⟩ | ⟨i, rfl, hi⟩
    · exact absurd rfl ((handleUnmap_mem _ _ _ _ _ _ hi).1 i)
    · refine ⟨hc, ((handleUnmap_mem _ _ _ _ _ _ hi).2 i rfl).imp (fun h => ?_) id⟩
      unfold unmapKind at h
      by_cases h1 : leAt m.body 4 4 = UNMAP_ALL
      · exact h1
      rw [if_neg h1] at h
      split_ifs at h
  · exact fun _ => hnil
  · exact fun _ => hnil
  · exact fun _ => hnil
  · exact fun _ => hnil
  · intro hc c hcl
    obtain ⟨x, hx, hcx⟩ := calls_flatMap hcl
    cases x with
    | close fd => cases hcx
    | signal fd => cases hcx
    | state i s n k =>
      have : c = .irqState i s n k := by simpa [calls, ofIrq, bracket] using hcx
      rw [this]
      exact ⟨hc, handleSet_mem _ _ _ _ _ hx⟩
  · exact fun hc => access_prompts hsz hl (w := false) hc hp
  · exact fun hc => access_prompts hsz hl (w := true) hc hp
  · intro hc c hcl
    dsimp only at hcl
    unfold deviceReset at hcl
    by_cases h : cfg.hasReset = true
    · rw [if_pos h] at hcl
      have : c = .reset .device := by
        dsimp only at hcl
        cases hr : env.resetCb .device <;> rw [hr] at hcl <;> simpa [calls, bracket] using hcl
      rw [this]
      exact hc
    · rw [if_neg h] at hcl; cases hcl
  · intro hc c hcl
    have hcl : c ∈ calls ((Mig.handleFeature env.feat { mig := st.mig, dma := st.dma } m.body).2.2.flatMap (ofVfu st.quiesced)) := hcl
    obtain ⟨x, hx, hcx⟩ := calls_flatMap hcl
    have : c = .migState x := by simpa [calls, ofVfu, bracket] using hcx
    rw [this]
    refine ⟨hc, ?_⟩
    by_contra h
    rw [(Mig.C25_only_set env.feat { mig := st.mig, dma := st.dma } m.body h).2] at hx
    cases hx
  · intro hc c hcl
    obtain ⟨q, hq⟩ := mem_calls.mp hcl
    obtain ⟨x, hx, h⟩ := List.mem_map.mp hq
    cases h
    rw [dataRead_mem hx]
    exact ⟨hc, rfl⟩
  · intro hc c hcl
    obtain ⟨q, hq⟩ := mem_calls.mp hcl
    obtain ⟨x, hx, h⟩ := List.mem_map.mp hq
    cases h
    rw [dataWrite_mem hx]
    exact ⟨hc, rfl⟩
  · exact fun _ => hnil

/-! ## Every callback has a cause -/

/-- What the device hears when its client is gone. -/
def Farewell : Call → Prop
  | .dmaUnregister _ => True
  | .reset .lostConn => True
  | _ => False

/-- The callbacks among the events have a cause; `s` is the request at hand. -/
def Caused (s : Option Msg) (l : List Ev) : Prop :=
  ∀ c ∈ calls l, c.Pause ∨ (∃ m, s = some m ∧ Prompts m c) ∨ Farewell c ∧ Ev.detach ∈ l

omit hsz hl

variable {s : Option Msg}

theorem Caused.nil : Caused s [] := fun c h => by cases h

theorem Caused.append {a b : List Ev} (ha : Caused s a) (hb : Caused s b) : Caused s (a ++ b) := by
  intro c hc
  rw [calls_append] at hc
  rcases List.mem_append.mp hc with h | h
  · exact (ha c h).imp id (Or.imp id (And.imp id fun h => List.mem_append_left _ h))
  · exact (hb c h).imp id (Or.imp id (And.imp id fun h => List.mem_append_right _ h))

theorem Caused.cons {e : Ev} (he : ∀ c q, e ≠ .call c q) {l : List Ev} (h : Caused s l) : Caused s (e :: l) := by
  intro c hc
  rw [calls_cons he] at hc
  exact (h c hc).imp id (Or.imp id (And.imp id fun h => List.mem_cons_of_mem _ h))

theorem Caused.silent {l : List Ev} (h : calls l = []) : Caused s l := by
  intro c hc
  rw [h] at hc
  cases hc

theorem caused_quiesce (r : Option Nat) (q : Bool) : Caused s (bracket .quiesce (.quiesce r) q) :=
  fun c hc => .inl (calls_pause r q c hc)

theorem dropDma_mem {d : Option Dma.Ctl} {d' : Option Dma.Ctl} {l : List Dma.Ev} (h : dropDma cfg d = .ok (d', l)) (i : Dma.Info) :
    Dma.Ev.register i ∉ l := by
  unfold dropDma at h
  cases d with
  | none => cases h; simp
  | some c =>
    dsimp only at h
    unfold Dma.removeAll at h
    cases hd : Dma.dropAll cfg.dma.hasUnreg c.regions with
    | err e => rw [hd] at h; cases h
    | fault e => rw [hd] at h; cases h
    | ok ev =>
      rw [hd] at h
      cases h
      rw [Dma.dropAll_evs _ hd]
      intro hm
      obtain ⟨r, _, hr⟩ := List.mem_flatMap.mp hm
      exact (dropEvs_mem hr).1 i rfl

theorem farewell_resetQuiesced (env : Env) (st : St) : ∀ c ∈ calls (resetQuiesced cfg env st).evs, Farewell c := by
  intro c
  unfold resetQuiesced
  cases hx : dropDma cfg st.dma with
  | err x => exact fun h => by cases h
  | fault x => exact fun h => by cases h
  | ok x =>
    obtain ⟨d, ev1⟩ := x
    dsimp only
    have h1 : c ∈ calls (ev1.flatMap (ofDma st.quiesced)) → Farewell c := by
      intro h
      rcases calls_ofDma h with ⟨i, rfl, hi⟩ | ⟨i, rfl, _⟩
      · exact absurd hi (dropDma_mem hx i)
      · trivial
    have h2 : ∀ st', c ∈ calls (deviceReset cfg env st' .lostConn).2.2 → Farewell c := by
      intro st' h
      unfold deviceReset at h
      by_cases hr : cfg.hasReset = true
      · rw [if_pos hr] at h
        have : c = .reset .lostConn := by
          dsimp only at h
          cases he : env.resetCb .lostConn <;> rw [he] at h <;> simpa [calls, bracket] using h
        rw [this]
        trivial
      · rw [if_neg hr] at h; cases h
    cases hr : Irq.reset cfg.irq (deviceReset cfg env { st with dma := d } .lostConn).1.irqs with
    | err x =>
      intro h
      dsimp only at h
      rw [calls_append] at h
      exact (List.mem_append.mp h).elim h1 (h2 _)
    | fault x =>
      intro h
      dsimp only at h
      rw [calls_append] at h
      exact (List.mem_append.mp h).elim h1 (h2 _)
    | ok y =>
      intro h
      dsimp only at h
      rw [calls_append, calls_append, calls_append, calls_ofIrq _ (reset_state (st' := y.1) (l := y.2) hr), List.append_nil,
        show calls [Ev.detach] = [] from rfl, List.append_nil] at h
      exact (List.mem_append.mp h).elim h1 (h2 _)

theorem caused_resetQuiesced (hi : cfg.irq.Ok) {dma : Option (Nat × Nat)} (env : Env) {st : St}
    (h : Reached cfg dma st.dma st.irqs) : Caused s (resetQuiesced cfg env st).evs := by
  obtain ⟨ev3, e⟩ := resetQuiesced_exact hi env h
  have hd : Ev.detach ∈ (resetQuiesced cfg env st).evs := by rw [e]; simp
  exact fun c hc => .inr (.inr ⟨farewell_resetQuiesced env st c hc, hd⟩)

theorem caused_resetCtx (hi : cfg.irq.Ok) {dma : Option (Nat × Nat)} (env : Env) (k : Nat) {st : St}
    (h : Reached cfg dma st.dma st.irqs) : Caused s (resetCtx cfg env k st).evs := by
  have h0 := caused_resetQuiesced (s := s) hi env h
  unfold resetCtx
  by_cases hq : cfg.hasQuiesce = true ∧ st.pending = .none
  · rw [if_pos hq]
    dsimp only
    have hb := caused_quiesce (s := s) (env.quiesce k) st.quiesced
    revert hb
    generalize bracket .quiesce (.quiesce (env.quiesce k)) st.quiesced = br
    intro hb
    cases env.quiesce k with
    | none => exact hb.append h0
    | some e =>
      dsimp only
      by_cases he : e = EBUSY
      · rw [if_pos he]; exact hb
      · rw [if_neg he]; exact hb
  · rw [if_neg hq]; exact h0

theorem caused_doReply (hi : cfg.irq.Ok) {dma : Option (Nat × Nat)} (env : Env) (k : Nat) {st : St}
    (h : Reached cfg dma st.dma st.irqs) (hd : Wire.Hdr) (b : Wire.Body) (fds : List (Option Fd)) (err : Nat) :
    Caused s (doReply cfg env k st hd b fds err).evs := by
  unfold doReply
  by_cases hn : hd.noReply = true
  · rw [if_pos hn]; exact .nil
  rw [if_neg hn]
  dsimp only
  have hs : ∀ ws : List Wire.Sent, Caused s (ws.map Ev.sent) := fun ws => .silent (calls_sent ws)
  cases (Wire.reply env.snd hd b fds (err % U32)).1 with
  | ok u => exact hs _
  | error e =>
    dsimp only
    by_cases he : e = ECONNRESET ∨ e = ENOMSG
    · rw [if_pos he]; exact (hs _).append (caused_resetCtx hi env k h)
    · rw [if_neg he]; exact hs _

theorem caused_closes (l : List (Option Fd)) : Caused s (closes l) := .silent (calls_closes l)

theorem caused_freed : Caused s [.freed] := .silent rfl

theorem caused_refuse (hi : cfg.irq.Ok) {dma : Option (Nat × Nat)} (env : Env) (k : Nat) {st : St}
    (h : Reached cfg dma st.dma st.irqs) (hd : Wire.Hdr) (fds : List Fd) (err : Nat) :
    Caused s (refuse cfg env k st hd fds err).evs := by
  have h := caused_doReply (s := s) hi env k h hd (.bytes []) [] err
  unfold refuse
  dsimp only
  by_cases hf : (doReply cfg env k st hd (.bytes []) [] err).res.isFault = true
  · rw [if_pos hf]; exact h
  · rw [if_neg hf]; exact (h.append (caused_closes _)).append caused_freed

include hsz hl

theorem caused_handleRequest (hi : cfg.irq.Ok) {dma : Option (Nat × Nat)} (env : Env) (ho : env.os.Ok) (k : Nat) {st : St}
    (h : Core cfg dma p st) (m : Msg) : Caused (some m) (handleRequest cfg env k st m).evs := by
  have he : Caused (some m) (exec cfg env st m).evs :=
    fun c hc => .inr (.inl ⟨m, rfl, exec_prompts hsz hl h.pci c hc⟩)
  have ht := (stable_reached cfg dma).exec ho h.tables m
  unfold handleRequest
  dsimp only
  generalize exec cfg env st m = d at he ht
  have he' : Caused (some m) (.exec m.hdr :: d.evs) := .cons (by simp) he
  by_cases hf : d.res.isFault = true
  · rw [if_pos hf]; exact he'
  rw [if_neg hf]
  have h1 := he'.append (caused_doReply hi env k ht m.hdr d.out d.outFds (replyErr d.res))
  unfold finish
  dsimp only
  by_cases hf : (doReply cfg env k d.st m.hdr d.out d.outFds (replyErr d.res)).res.isFault = true
  · rw [if_pos hf]; exact h1
  · rw [if_neg hf]; exact (h1.append (caused_closes _)).append caused_freed

theorem caused_call (hi : cfg.irq.Ok) {dma : Option (Nat × Nat)} {st : St} (h : Core cfg dma p st) (op : Op) (ho : op.OSOk) :
    Caused (op.subject st) (call cfg st op).evs := by
  have ht := h.tables
  cases op with
  | run env i =>
    have hos := ho env rfl
    show Caused _ (poll cfg env st i).evs
    unfold poll
    by_cases h1 : st.pending ≠ .none
    · rw [if_pos h1]; exact .nil
    rw [if_neg h1]
    by_cases h2 : st.conn = false
    · rw [if_pos h2]; exact .nil
    rw [if_neg h2]
    cases i with
    | again => exact .nil
    | lost e leak => exact .cons (by simp) (caused_resetCtx hi env 0 ht)
    | failed e leak => exact .cons (by simp) .nil
    | bad hd fds e => exact .cons (by simp) (caused_refuse hi env 0 ht hd fds e)
    | req hd body fds =>
      refine .cons (by simp) ?_
      change Caused (some ⟨hd, body, fds⟩) (dispatch cfg env st ⟨hd, body, fds⟩).evs
      unfold dispatch
      dsimp only
      by_cases h3 : shouldExec st.mig hd.cmd = false
      · rw [if_pos h3]; exact caused_refuse hi env 0 ht _ _ _
      rw [if_neg h3]
      by_cases h4 : needsQuiesce cfg st ⟨hd, body, fds⟩ = true
      · rw [if_pos h4]
        have hb := caused_quiesce (s := some ⟨hd, body, fds⟩) (env.quiesce 0) st.quiesced
        revert hb
        generalize bracket .quiesce (.quiesce (env.quiesce 0)) st.quiesced = br
        intro hb
        cases env.quiesce 0 with
        | none =>
          exact hb.append (caused_handleRequest hsz hl hi env hos 1 (st := { st with quiesced := true }) ⟨ht, h.mig, h.pci⟩ _)
        | some e =>
          dsimp only
          by_cases he : e = EBUSY
          · rw [if_pos he]; exact hb
          · rw [if_neg he]; exact hb.append (caused_refuse hi env 1 ht _ _ _)
      · rw [if_neg h4]; exact caused_handleRequest hsz hl hi env hos 0 h _
  | quiesced env e =>
    have ho := ho env rfl
    show Caused _ (deviceQuiesced cfg env st e).evs
    unfold deviceQuiesced
    by_cases h1 : cfg.hasQuiesce = false ∨ st.pending = .none
    · rw [if_pos h1]; exact .nil
    rw [if_neg h1]
    dsimp only
    refine .cons (by simp) ?_
    simp only [Op.subject]
    by_cases he : e = 0
    · rw [if_pos he]
      cases hpd : st.pending with
      | none => exact .nil
      | msg m =>
        have := caused_handleRequest hsz hl hi env ho 0 (st := { st with quiesced := true }) ⟨ht, h.mig, h.pci⟩ m
        simpa only [hpd] using this
      | ctxReset =>
        have := caused_resetQuiesced (cfg := cfg) (s := none) hi env (st := { st with quiesced := true }) ht
        simpa only [hpd] using this
    · rw [if_neg he]
      cases st.pending with
      | none => exact .nil
      | msg m => exact (caused_closes _).append caused_freed
      | ctxReset => exact .nil
  | transfer env lost =>
    show Caused _ (transfer cfg env st lost).evs
    unfold transfer
    by_cases h1 : st.pending ≠ .none
    · rw [if_pos h1]; exact .nil
    rw [if_neg h1]
    by_cases h : lost = true ∧ st.conn = true
    · rw [if_pos h]; exact caused_resetCtx hi env 0 ht
    · rw [if_neg h]; exact .nil
  | attach n =>
    show Caused _ (attach st n).evs
    unfold attach
    by_cases h : st.conn = true
    · rw [if_pos h]; exact .nil
    rw [if_neg h]
    cases n <;> exact .nil
  | config f => exact .nil
  | mark sgl =>
    simp only [call]
    cases st.dma with
    | none => exact .nil
    | some c => dsimp only; cases Dma.sglMark c sgl <;> exact .nil
  | trigger wr sub => exact .silent (calls_ofIrq _ (trigger_state wr st.irqs sub))

omit hsz hl in
theorem core_init (cfg : Cfg) (mig : Bool) (dma : Option (Nat × Nat)) (p : Pci.Pci) : Core cfg dma p (init cfg mig dma p) := by
  refine ⟨⟨⟨[], (fun op h => by cases h), rfl⟩, [], rfl⟩, ?_, rfl⟩
  intro n hn
  cases mig with
  | true => cases hn; exact ⟨.running, rfl⟩
  | false => cases hn

omit hsz hl in
theorem keptGood_run (cfg : Cfg) {good : Wire.In → Prop} (ops : List Op) : ∀ {st : St}, KeptGood good st → (∀ o ∈ ops, o.Good good) →
    KeptGood good (run cfg st ops).1 := by
  induction ops with
  | nil => exact fun h _ => h
  | cons o ops ih =>
    intro st h hg
    have h1 := ((closed_true cfg good).call st h o (hg o (.head _))).2
    simp only [run]
    by_cases hf : (call cfg st o).res.isFault = true
    · rw [if_pos hf]; exact h1
    · rw [if_neg hf]; exact ih h1 fun o h => hg o (.tail _ h)

/-- C92: in every history, whatever its client sends and its callbacks answer, each callback of the device asks it to quiesce,
or is what the request at hand asks for — a request the client sent, in this call or, if it had to wait for the device, in an
earlier one — or belongs to the client that is gone, whose connection is given up in the same call. -/
theorem C92_cause (hi : cfg.irq.Ok) (mig : Bool) (dma : Option (Nat × Nat)) (pre : List Op) (op : Op)
    (ho : ∀ o ∈ pre ++ [op], o.OSOk) :
    ∀ c ∈ calls (call cfg (run cfg (init cfg mig dma p) pre).1 op).evs, (∃ r, c = .quiesce r) ∨
      (∃ m : Msg, Prompts m c ∧ ((∃ env, op = .run env (.req m.hdr m.body m.fds)) ∨
        (∃ env, op = .quiesced env 0) ∧ ∃ env, .run env (.req m.hdr m.body m.fds) ∈ pre)) ∨
      Farewell c ∧ Ev.detach ∈ (call cfg (run cfg (init cfg mig dma p) pre).1 op).evs := by
  have hc := core_init cfg mig dma p
  have h1 := (core_kept cfg dma p).run pre hc fun o h => ho o (by simp [h])
  have h2 : KeptGood (fun i => ∃ env, Op.run env i ∈ pre) (run cfg (init cfg mig dma p) pre).1 := by
    refine keptGood_run cfg pre (fun m hm => by cases hm) ?_
    intro o h
    cases o <;> first | trivial | exact ⟨_, h⟩
  generalize (run cfg (init cfg mig dma p) pre).1 = st at h1 h2
  intro c hcl
  rcases caused_call hsz hl hi h1 op (ho op (by simp)) c hcl with h | ⟨m, hm, h⟩ | h
  · exact .inl h
  · refine .inr (.inl ⟨m, h, ?_⟩)
    cases op with
    | run env i =>
      cases i with
      | req h body fds => cases hm; exact .inl ⟨env, rfl⟩
      | _ => cases hm
    | quiesced env e =>
      simp only [Op.subject] at hm
      cases hp : st.pending with
      | none => rw [hp] at hm; cases hm
      | ctxReset => rw [hp] at hm; cases hm
      | msg m' =>
        rw [hp] at hm
        cases hm
        refine .inr ⟨⟨env, ?_⟩, h2 m hp⟩
        by_cases he : e = 0
        · rw [he]
        · exfalso
          simp only [call] at hcl
          unfold deviceQuiesced at hcl
          by_cases hq : cfg.hasQuiesce = false ∨ st.pending = .none
          · rw [if_pos hq] at hcl; cases hcl
          rw [if_neg hq] at hcl
          dsimp only at hcl
          rw [if_neg he, hp, calls_cons (by simp)] at hcl
          dsimp only at hcl
          rw [calls_append, calls_closes] at hcl
          cases hcl
    | _ => cases hm
  · exact .inr (.inr h)

end

/-! ## A device that hears things -/

section
open Demo

/-- A function level reset that had to wait: it is the client's write to the device control register, sent one call before. -/
example : calls (call flrDev (run flrDev (init flrDev true none Pci.ex8) (flrOps.take 3)).1 (.quiesced env 0)).evs = [.reset .flr] ∧
    Prompts ⟨hdr 2 10 0 18, cfgBody 0x84 (enc 2 0x8000), []⟩ (.reset .flr) := by
  refine ⟨by decide +kernel, rfl, by decide⟩

example : ∀ c ∈ calls (call flrDev (run flrDev (init flrDev true none Pci.ex8) (flrOps.take 3)).1 (.quiesced env 0)).evs,
    (∃ r, c = .quiesce r) ∨
      (∃ m : Msg, Prompts m c ∧ ((∃ e, Op.quiesced env 0 = .run e (.req m.hdr m.body m.fds)) ∨
        (∃ e, Op.quiesced env 0 = .quiesced e 0) ∧ ∃ e, .run e (.req m.hdr m.body m.fds) ∈ flrOps.take 3)) ∨
      Farewell c ∧ Ev.detach ∈ (call flrDev (run flrDev (init flrDev true none Pci.ex8) (flrOps.take 3)).1 (.quiesced env 0)).evs := by
  refine C92_cause (by decide) flr_layout irq_ok true none (flrOps.take 3) (.quiesced env 0) ?_
  intro o h
  simp only [flrOps, List.take_succ_cons, List.take_zero, List.cons_append, List.nil_append, List.mem_cons, List.not_mem_nil,
    or_false] at h
  rcases h with rfl | rfl | rfl | rfl
  · exact fun _ h => by cases h
  all_goals exact fun _ h => by cases h; exact os_ok

/-- The client goes away. -/
example : calls (call flrDev (run flrDev (init flrDev true none Pci.ex8) (flrOps.take 1)).1 (.run env (.lost 0 []))).evs =
    [.quiesce none, .reset .lostConn] := by
  decide +kernel

end

end Verif.Server
