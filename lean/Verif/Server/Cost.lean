import Verif.Server.Again
import Verif.Server.Cause
import Verif.Server.Stream
import Verif.Server.Defer

/-!
# What one call costs the device

C115: a single call of the library runs a bounded number of callbacks, known from the request and from the number of mappings. -/

namespace Verif.Server
open Verif
open Verif.Dma (Fd)

/-- What a callback is for. -/
inductive Work where
  /-- be quiet -/
  | pause
  | register
  | unregister
  /-- reset on request -/
  | reset
  /-- reset because the client is gone -/
  | bye
  | state
  | data
  /-- accesses to regions, with the function level resets that accesses to the config space cause -/
  | access
  | mask
  deriving DecidableEq, Repr

def Call.work : Call → Work
  | .quiesce _ => .pause
  | .dmaRegister _ => .register
  | .dmaUnregister _ => .unregister
  | .reset .device => .reset
  | .reset .lostConn => .bye
  | .reset .flr => .access
  | .migState _ => .state
  | .migData _ => .data
  | .region .. => .access
  | .irqState .. => .mask

/-- How many callbacks of a kind one call may run, for an access in `n` pieces and `s` mappings. -/
def Work.limit (n s : Nat) : Work → Nat
  | .pause => 2
  | .register | .reset | .bye | .data | .mask => 1
  | .unregister => s + 1
  | .state => 3
  | .access => n

/-- The number of mappings. -/
def mappings (st : St) : Nat := (st.dma.map fun c => c.regions.length).getD 0

/-- How many pieces an access may be cut into: one for each byte of the config space, otherwise one. -/
def portions (body : List Byte) : Nat := if leAt body 8 4 = Region.CFG_IDX then leAt body 12 4 else 1

/-- The same for the request the call may carry out. -/
def askedPieces (st : St) (op : Op) : Nat := ((op.subject st).map fun m => portions m.body).getD 0

/-! ## Config space -/

end Verif.Server

namespace Verif.Pci

theorem writePxdc_few (dev : Dev) (m : Mem) (c : Cap) (buf : List Byte) : (writePxdc dev m c buf).2.2.length ≤ 1 := by
  unfold writePxdc
  dsimp only
  split
  · split
    · simp
    · split
      · simp
      · split <;> simp
  · simp

theorem writePx_few (dev : Dev) (m : Mem) (c : Cap) (buf : List Byte) (count rel : Nat) :
    (writePx dev m c buf count rel).2.2.length ≤ 1 := by
  unfold writePx
  split
  · simp
  split
  · exact writePxdc_few ..
  repeat (split; · simp)
  simp

theorem capWrite_few (dev : Dev) (alloc : Nat) (m : Mem) (c : Cap) (buf : List Byte) (count off : Nat) :
    (capWrite dev alloc m c buf count off).2.2.length ≤ 1 := by
  unfold capWrite
  split
  · simp
  split
  · split
    · simp
    · split <;> simp
  split
  · simp
  split
  · exact writePx_few ..
  repeat (split; · simp)
  simp

theorem readOut_few (p : Pci) (m : Mem) (count off : Nat) : (readOut p m count off).evs = [] := by
  unfold readOut
  split
  · rfl
  · split <;> rfl

theorem nonstd_few (dev : Dev) (p : Pci) (m : Mem) (buf : List Byte) (count off : Nat) (write : Bool) :
    (nonstd dev p m buf count off write).evs.length ≤ 1 := by
  unfold nonstd
  cases dev.cb with
  | some cb => exact Nat.le_refl _
  | none =>
    dsimp only
    split
    · simp
    · rw [readOut_few]; simp

/-- A segment costs at most one callback. -/
theorem serve_few (dev : Dev) (p : Pci) (o : Owner) (m : Mem) (buf : List Byte) (count off : Nat) (write : Bool) :
    (serve dev p o m buf count off write).evs.length ≤ 1 := by
  cases o with
  | hdr =>
    show (hdrAccess p m buf count off write).evs.length ≤ 1
    unfold hdrAccess
    split
    · simp
    split
    · split <;> simp
    · rw [readOut_few]; simp
  | cap =>
    show (capAccess dev p m buf count off write).evs.length ≤ 1
    unfold capAccess
    split
    · simp
    split
    · simp
    split
    · simp
    split
    · exact nonstd_few ..
    split
    · rw [readOut_few]; simp
    split
    · simp
    · exact capWrite_few ..
  | dflt => exact nonstd_few ..

/-- Every segment moves a byte. -/
theorem loop_few (dev : Dev) (p : Pci) (write : Bool) : ∀ (fuel : Nat) (m : Mem) (buf : List Byte) (count off done : Nat),
    (loop dev p write fuel m buf count off done).evs.length ≤ count := by
  intro fuel
  induction fuel with
  | zero => intro m buf count off done; exact Nat.zero_le _
  | succ fuel ih =>
    intro m buf count off done
    unfold loop
    by_cases h0 : count = 0
    · rw [if_pos h0]; exact Nat.zero_le _
    rw [if_neg h0]
    cases nextSegment p count off write with
    | none => exact Nat.zero_le _
    | some x =>
      obtain ⟨o, size⟩ := x
      dsimp only
      have hs := serve_few dev p o m buf size off write
      generalize serve dev p o m buf size off write = s at hs
      cases s.ret with
      | err e => dsimp only; omega
      | fault e => dsimp only; omega
      | ok n =>
        dsimp only
        by_cases h1 : n = 0
        · rw [if_pos h1]; dsimp only; omega
        rw [if_neg h1]
        by_cases h2 : n > size
        · rw [if_pos h2]; dsimp only; omega
        rw [if_neg h2]
        dsimp only
        have := ih s.mem (buf.drop n) (count - n) (off + n) (done + n)
        rw [List.length_append]
        by_cases h3 : count - n = 0
        · rw [h3] at this ⊢; omega
        · omega

theorem access_few (dev : Dev) (p : Pci) (buf : List Byte) (count off : Nat) (write : Bool) :
    (access dev p buf count off write).evs.length ≤ count := loop_few ..

end Verif.Pci

namespace Verif.Server
open Verif
open Verif.Dma (Fd)

/-! ## Requests -/

/-- The same for the request alone. -/
def Work.cap (n s : Nat) : Work → Nat
  | .unregister => s
  | .pause | .bye => 0
  | w => w.limit n s

/-- The callbacks of one request: all for the same purpose; `k` mappings are left. -/
structure Job (n s : Nat) (w : Work) (k : Nat) (l : List Call) : Prop where
  same : ∀ c ∈ l, c.work = w
  few : l.length ≤ w.cap n s
  left : k + (if w = .unregister then l.length else 0) ≤ s + (if w = .register then 1 else 0)

theorem Job.none {n s : Nat} : Job n s .pause s [] := ⟨(fun c h => by cases h), Nat.zero_le _, by simp⟩

theorem calls_flat_length {α : Type} {f : α → List Ev} (h : ∀ x, (calls (f x)).length ≤ 1) (l : List α) :
    (calls (l.flatMap f)).length ≤ l.length := by
  induction l with
  | nil => exact Nat.le_refl _
  | cons x l ih =>
    rw [List.flatMap_cons, calls_append, List.length_append, List.length_cons]
    have := h x
    omega

theorem ofPci_one (q : Bool) (e : Pci.Ev) : (calls (ofPci q e)).length ≤ 1 := by cases e <;> exact Nat.le_refl _

theorem ofPci_work (q : Bool) (l : List Pci.Ev) : ∀ c ∈ calls (l.flatMap (ofPci q)), c.work = .access := by
  intro c hc
  obtain ⟨x, _, h⟩ := calls_flatMap hc
  cases x with
  | cb off buf w => cases List.mem_singleton.mp (show c ∈ [Call.region Region.CFG_IDX off buf w] from h); rfl
  | flr => cases List.mem_singleton.mp (show c ∈ [Call.reset .flr] from h); rfl

theorem access_job (cfg : Cfg) (env : Env) (st : St) (w : Bool) (body : List Byte) (fds : List Fd) :
    Job (portions body) (mappings st) .access (mappings (access cfg env st w body fds).st) (calls (access cfg env st w body fds).evs) := by
  have key : ∀ cs : List Region.Call, (cs = [] ∨ ∃ c, cs = [c] ∧ 0 < portions body ∧
      (∀ off buf w, c = .config off buf w → buf.length ≤ portions body)) → ∀ p,
      (∀ c ∈ calls (afterCalls cfg env st.quiesced p cs).2, c.work = .access) ∧
        (calls (afterCalls cfg env st.quiesced p cs).2).length ≤ portions body := by
    rintro cs (rfl | ⟨c, rfl, h0, h1⟩) p
    · exact ⟨(fun c h => by cases h), Nat.zero_le _⟩
    cases c with
    | config off buf w =>
      have hl := h1 off buf w rfl
      have e : (afterCalls cfg env st.quiesced p [.config off buf w]).2 =
          (Pci.access (pciDev cfg env) p buf buf.length off w).evs.flatMap (ofPci st.quiesced) := by
        simp only [afterCalls, List.append_nil]
      rw [e]
      refine ⟨ofPci_work _ _, ?_⟩
      have h2 := calls_flat_length (ofPci_one st.quiesced) (Pci.access (pciDev cfg env) p buf buf.length off w).evs
      have h3 := Pci.access_few (pciDev cfg env) p buf buf.length off w
      omega
    | cb r off buf w =>
      have e : calls (afterCalls cfg env st.quiesced p [.cb r off buf w]).2 = [.region r off buf w] := rfl
      rw [e]
      exact ⟨fun c hc => by cases List.mem_singleton.mp hc; rfl, h0⟩
  have hcs : ∀ h : Region.Handler, (Region.handleAccess h env.alloc cfg.tbl (stopCopy st.mig) w body).2 = [] ∨
      ∃ c, (Region.handleAccess h env.alloc cfg.tbl (stopCopy st.mig) w body).2 = [c] ∧ 0 < portions body ∧
        (∀ off buf w, c = .config off buf w → buf.length ≤ portions body) := by
    intro h
    unfold Region.handleAccess
    by_cases h1 : body = []
    · rw [if_pos h1]; exact .inl rfl
    rw [if_neg h1]
    by_cases h2 : Region.validAccess cfg.tbl (stopCopy st.mig) w body = false
    · rw [if_pos h2]; exact .inl rfl
    rw [if_neg h2]
    dsimp only
    by_cases h3 : leAt body 12 4 = 0
    · rw [if_pos h3]; exact .inl rfl
    rw [if_neg h3]
    by_cases h4 : env.alloc = false
    · rw [if_pos h4]; exact .inl rfl
    rw [if_neg h4]
    cases cfg.tbl[leAt body 8 4]? with
    | none => exact .inl rfl
    | some r =>
      dsimp only
      have hbuf : (if w = true then body.drop 16 else List.replicate (leAt body 12 4) 0#8).length = leAt body 12 4 := by
        cases w with
        | false => simp
        | true =>
          simp only [if_true, List.length_drop]
          by_contra hne
          refine h2 ?_
          unfold Region.validAccess
          by_cases ha : body.length < 16
          · rw [if_pos ha]
          rw [if_neg ha]
          by_cases hb : leAt body 12 4 > Region.MAX_XFER
          · rw [if_pos hb]
          rw [if_neg hb]
          by_cases hc : (true : Bool) = true ∧ body.length - 16 ≠ leAt body 12 4
          · rw [if_pos hc]
          · exact absurd ⟨rfl, hne⟩ hc
      generalize (if w = true then body.drop 16 else List.replicate (leAt body 12 4) 0#8) = buf at hbuf
      have hra : (Region.regionAccess h r (leAt body 8 4) buf (leAt body 0 8) w).2.2 = [] ∨
          ∃ c, (Region.regionAccess h r (leAt body 8 4) buf (leAt body 0 8) w).2.2 = [c] ∧ 0 < portions body ∧
            (∀ off b w, c = .config off b w → b.length ≤ portions body) := by
        have hpos : 0 < portions body := by unfold portions; split <;> omega
        unfold Region.regionAccess
        split
        · rename_i hr
          have hp : portions body = leAt body 12 4 := by unfold portions; rw [if_pos hr.1]
          exact .inr ⟨_, rfl, hpos, fun off b w h => by cases h; rw [hp, hbuf]⟩
        split
        · exact .inl rfl
        · exact .inr ⟨_, rfl, hpos, fun off b w h => by cases h⟩
      generalize Region.regionAccess h r (leAt body 8 4) buf (leAt body 0 8) w = y at hra
      obtain ⟨ret, b, cs⟩ := y
      dsimp only at hra ⊢
      cases ret with
      | ok n => dsimp only; split <;> exact hra
      | err e => exact hra
      | fault e => exact hra
  have h := key _ (hcs (handlers cfg env st.pci)) st.pci
  exact ⟨h.1, h.2, by simp [access, Done.pure, mappings]⟩

theorem map_job (cfg : Cfg) (env : Env) (st : St) (c : Dma.Ctl) (hc : st.dma = some c) (body : List Byte) (fds : List Fd) :
    Job (portions body) (mappings st) .register (mappings (dmaMap cfg env st c body fds).st)
      (calls (dmaMap cfg env st c body fds).evs) := by
  have hm : mappings st = c.regions.length := by unfold mappings; rw [hc]; rfl
  refine dmaMap_elim (P := fun d => Job (portions body) (mappings st) .register (mappings d.st) (calls d.evs)) cfg env st c body fds ?_ ?_
  · exact fun r _ => ⟨(fun c h => by cases h), Nat.zero_le _, by simp⟩
  · intro o ho
    have hcase := Dma.handleMap_case env.os cfg.dma.hasReg c
      { flags := leAt body 4 4, offset := leAt body 8 8, addr := leAt body 16 8, size := leAt body 24 8, fds }
    rw [← ho] at hcase
    have hreg : ∀ i : Dma.Info, ∀ l, l = calls ((if cfg.dma.hasReg then [Dma.Ev.register i] else []).flatMap (ofDma st.quiesced)) →
        (∀ c ∈ l, c.work = .register) ∧ l.length ≤ 1 := by
      intro i l hl
      cases hr : cfg.dma.hasReg with
      | false => rw [hr] at hl; subst hl; exact ⟨(fun c h => by cases h), Nat.zero_le _⟩
      | true =>
        rw [hr] at hl
        have : l = [Call.dmaRegister i] := hl
        subst this
        exact ⟨fun c h => by cases List.mem_singleton.mp h; rfl, Nat.le_refl _⟩
    have hcl : ∀ x : Option Fd, calls ((Dma.closeEv x).flatMap (ofDma st.quiesced)) = [] := by intro x; cases x <;> rfl
    cases hcase with
    | flags e _ _ => exact ⟨(fun c h => by cases h), Nat.zero_le _, by simp [mappings, hc]⟩
    | fail e ev _ _ hev =>
      have h0 : calls ((ev ++ Dma.closeEv fds.head?).flatMap (ofDma st.quiesced)) = [] := by
        rw [List.flatMap_append, calls_append, hcl, List.append_nil]
        rcases hev with rfl | ⟨x, _, rfl⟩ <;> rfl
      dsimp only
      rw [h0]
      exact ⟨(fun c h => by cases h), Nat.zero_le _, by simp [mappings, hc]⟩
    | again idx r _ _ _ _ _ _ _ _ =>
      obtain ⟨h1, h2⟩ := hreg r.info _ rfl
      exact ⟨h1, h2, by simp [mappings, hc]⟩
    | new r _ _ _ _ _ _ =>
      dsimp only
      have h0 : calls ((if fds.head? = none then [] else [Dma.Ev.mmap r.info.mapBase r.info.mapLen]).flatMap (ofDma st.quiesced)) = [] := by
        split <;> rfl
      rw [List.flatMap_append, calls_append, h0, List.nil_append]
      obtain ⟨h1, h2⟩ := hreg r.info _ rfl
      exact ⟨h1, h2, by simp [mappings, hc]⟩

theorem calls_drop (u q : Bool) (r : Dma.Region) : (∀ c ∈ calls ((Dma.dropEvs u r).flatMap (ofDma q)), c.work = .unregister) ∧
    (calls ((Dma.dropEvs u r).flatMap (ofDma q))).length ≤ 1 := by
  unfold Dma.dropEvs
  cases u <;> cases r.fd
  · exact ⟨(fun c h => by cases h), Nat.zero_le _⟩
  · exact ⟨(fun c h => by cases h), Nat.zero_le _⟩
  all_goals
    refine ⟨fun c h => ?_, Nat.le_refl _⟩
    cases List.mem_singleton.mp (show c ∈ [Call.dmaUnregister r.info] from h)
    rfl

theorem calls_drops (u q : Bool) (rs : List Dma.Region) :
    (∀ c ∈ calls ((rs.flatMap (Dma.dropEvs u)).flatMap (ofDma q)), c.work = .unregister) ∧
      (calls ((rs.flatMap (Dma.dropEvs u)).flatMap (ofDma q))).length ≤ rs.length := by
  induction rs with
  | nil => exact ⟨(fun c h => by cases h), Nat.zero_le _⟩
  | cons r rs ih =>
    obtain ⟨h1, h2⟩ := calls_drop u q r
    rw [List.flatMap_cons, List.flatMap_append, calls_append]
    refine ⟨fun c h => (List.mem_append.mp h).elim (h1 c) (ih.1 c), ?_⟩
    rw [List.length_append, List.length_cons]
    have := ih.2
    omega

theorem unmap_job (cfg : Cfg) (env : Env) (st : St) (c : Dma.Ctl) (hc : st.dma = some c) (body : List Byte) (fds : List Fd) :
    Job (portions body) (mappings st) .unregister (mappings (dmaUnmap cfg env st c body fds).st)
      (calls (dmaUnmap cfg env st c body fds).evs) := by
  have hm : mappings st = c.regions.length := by unfold mappings; rw [hc]; rfl
  refine dmaUnmap_elim (P := fun d => Job (portions body) (mappings st) .unregister (mappings d.st) (calls d.evs)) cfg env st c body
    fds ?_ ?_
  · exact fun r _ => ⟨(fun c h => by cases h), Nat.zero_le _, by simp [calls]⟩
  · intro r l _ _
    have hcase := Dma.handleUnmap_case env.alloc cfg.dma.hasUnreg c (leAt body 8 8) (leAt body 16 8) (unmapKind env body)
    generalize Dma.handleUnmap env.alloc cfg.dma.hasUnreg c (leAt body 8 8) (leAt body 16 8) (unmapKind env body) = o at hcase
    have hlen : ∀ c1 : Dma.Ctl, c1.geoms = c.geoms → c1.regions.length = c.regions.length := by
      intro c1 h
      have := congrArg List.length h
      simpa only [Dma.Ctl.geoms, List.length_map] using this
    cases hcase with
    | nomem => exact ⟨(fun c h => by cases h), Nat.zero_le _, by simp [mappings, hc, calls]⟩
    | cleared _ =>
      obtain ⟨h1, h2⟩ := calls_drops cfg.dma.hasUnreg st.quiesced c.regions
      refine ⟨h1, by simp only [Work.cap]; omega, ?_⟩
      rw [if_pos rfl, hm]
      simpa [mappings] using h2
    | removed c1 l1 l2 r b _ hg _ _ _ h7 _ _ _ _ =>
      obtain ⟨h1, h2⟩ := calls_drop cfg.dma.hasUnreg st.quiesced r
      have h3 := hlen c1 hg
      rw [h7] at h3
      simp only [List.length_append, List.length_cons] at h3
      refine ⟨h1, by simp only [Work.cap] at h2 ⊢; omega, ?_⟩
      rw [if_pos rfl, hm]
      simp only [mappings, Option.map_some, Option.getD_some, List.length_append, reduceCtorEq, if_false] at h2 ⊢
      omega
    | enoent c1 _ hg _ _ _ _ => exact ⟨(fun c h => by cases h), Nat.zero_le _, by simp [mappings, hc, calls, hlen c1 hg]⟩
    | dirtyFail => exact ⟨(fun c h => by cases h), Nat.zero_le _, by simp [mappings, hc, calls, hlen _ ‹_›]⟩
    | assert c1 f _ hg _ _ _ => exact ⟨(fun c h => by cases h), Nat.zero_le _, by simp [mappings, hc, calls, hlen c1 hg]⟩

theorem setState_one {cfg : Irq.Cfg} {q : Irq.Req} {l : List Irq.Ev} (h : Irq.setState cfg q = .ok l) : l = [] ∨ ∃ e, l = [e] := by
  unfold Irq.setState at h
  split_ifs at h
  · cases h; exact .inl rfl
  · cases h; exact .inr ⟨_, rfl⟩

theorem irq_job (cfg : Cfg) (env : Env) (st : St) (body : List Byte) (fds : List Fd) :
    Job (portions body) (mappings st) .mask (mappings (setIrqs cfg env st body fds).st) (calls (setIrqs cfg env st body fds).evs) := by
  have hk : mappings (setIrqs cfg env st body fds).st = mappings st := rfl
  have key : (∀ e ∈ (Irq.handleSet cfg.irq env.eventfd st.irqs body (fds.map some)).evs, ∀ i s c m, e ≠ .state i s c m) ∨
      ∃ i s c m, (Irq.handleSet cfg.irq env.eventfd st.irqs body (fds.map some)).evs = [.state i s c m] := by
    by_cases h : ∃ i s c m, Irq.Ev.state i s c m ∈ (Irq.handleSet cfg.irq env.eventfd st.irqs body (fds.map some)).evs
    swap
    · left
      intro e he i s c m hx
      exact h ⟨i, s, c, m, hx ▸ he⟩
    right
    obtain ⟨i, s, c, m, h⟩ := h
    refine ⟨i, s, c, m, ?_⟩
    have hmem := handleSet_mem _ _ _ _ _ h
    have hact : (Irq.Req.ofBytes body).action = Irq.ACT_MASK ∨ (Irq.Req.ofBytes body).action = Irq.ACT_UNMASK := by
      have := hmem.2.2.2
      cases m
      · exact .inr this
      · exact .inl this
    revert h
    unfold Irq.handleSet
    cases Irq.validate cfg.irq body (fds.map some).length with
    | err e => exact fun h => by cases h
    | fault e => exact fun h => by cases h
    | ok u =>
      dsimp only
      rw [if_pos hact]
      cases hs : Irq.setState cfg.irq (Irq.Req.ofBytes body) with
      | err e => exact fun h => by cases h
      | fault e => exact fun h => by cases h
      | ok l =>
        dsimp only
        intro h
        rcases setState_one hs with rfl | ⟨e, rfl⟩
        · cases h
        · rw [List.mem_singleton.mp h]
  unfold setIrqs
  dsimp only
  rcases key with h | ⟨i, s, c, m, h⟩
  · rw [calls_ofIrq _ h]
    exact ⟨(fun c h => by cases h), Nat.zero_le _, by simp [mappings]⟩
  · rw [h]
    refine ⟨fun x hx => ?_, Nat.le_refl _, by simp [mappings]⟩
    cases List.mem_singleton.mp (show x ∈ [Call.irqState i s c m] from hx)
    rfl

theorem setState_few (cb : Nat → Option Nat) (a : Mig.MSt) (t : Nat) : (Mig.setState cb a.num t).2.2.length ≤ 3 := by
  by_cases h8 : t = 8
  · subst h8; rw [Mig.setState_eight]; simp
  by_cases hb : ∃ b : Mig.MSt, t = b.num
  · obtain ⟨b, rfl⟩ := hb
    rw [Mig.setState_route]
    rcases hr : Mig.route a b with _ | p
    · simp
    have hl : p.length ≤ 3 := by
      cases a <;> cases b <;> simp only [Mig.route, Option.some.injEq, reduceCtorEq] at hr <;> subst hr <;> decide
    have hp := Mig.route_path hr
    rcases Mig.walk_spec cb p 0 a b hp with ⟨h1, _⟩ | ⟨q, c, x, e, _, _, hq, _, _, h1⟩
    · simp only [h1, List.length_map]; exact hl
    · simp only [h1, List.length_map]
      exact Nat.le_trans hq.length_le hl
  · rw [Mig.setState_bad cb a t h8 fun b h => hb ⟨b, h⟩]; simp

theorem dataRead_few (alloc : Bool) (cb : Nat → Mig.ReadCb) (mig : Option Nat) (mx : Nat) (body : List Byte) :
    (Mig.dataRead alloc cb mig mx body).2.length ≤ 1 := by
  unfold Mig.dataRead
  dsimp only
  repeat' split
  all_goals simp

theorem dataWrite_few (cb : List Byte → Except Nat Nat) (mig : Option Nat) (mx : Nat) (body : List Byte) :
    (Mig.dataWrite cb mig mx body).2.length ≤ 1 := by
  unfold Mig.dataWrite
  dsimp only
  repeat' split
  all_goals simp

theorem feature_job {env : Env} {st : St} (hm : ∀ n, st.mig = some n → ∃ a : Mig.MSt, n = a.num) (cfg : Cfg) (body : List Byte)
    (fds : List Fd) :
    Job (portions body) (mappings st) .state (mappings (feature env st body fds).st) (calls (feature env st body fds).evs) := by
  have e : calls (feature env st body fds).evs =
      (Mig.handleFeature env.feat { mig := st.mig, dma := st.dma } body).2.2.map Call.migState := calls_walk _ _
  have hk : mappings (feature env st body fds).st ≤ mappings st := by
    show ((Mig.handleFeature env.feat { mig := st.mig, dma := st.dma } body).1.dma.map fun c => c.regions.length).getD 0 ≤ _
    rcases feature_touch env.feat { mig := st.mig, dma := st.dma } body cfg.dma with h | ⟨c, op, h0, h1, h2, h3, _⟩
    · rw [h]; exact Nat.le_refl _
    · rw [h3]
      unfold mappings
      rw [show st.dma = some c from h0]
      rcases (Dma.step_geoms cfg.dma c op).2.2 with h | ⟨os, q, r, h, _⟩
      · have := h.length_le
        simp only [Dma.Ctl.geoms, List.length_map] at this
        exact this
      · exact absurd h (h1 os q)
  rw [e]
  refine ⟨?_, ?_, by simpa using hk⟩
  · intro c hc
    obtain ⟨v, _, rfl⟩ := List.mem_map.mp hc
    rfl
  · rw [List.length_map]
    show _ ≤ 3
    rcases Mig.feature_cases env.feat { mig := st.mig, dma := st.dma } body with he | ⟨n, hn, hsup, ⟨hops, he⟩ | ⟨hops, he⟩ | ⟨_, _, he⟩⟩
    · rw [he]; simp
    · rw [he]
      unfold Mig.featGet
      split
      · simp
      · split <;> simp
    · rw [he]
      unfold Mig.featSet
      split
      · simp
      split
      · simp
      split
      · obtain ⟨a, rfl⟩ := hm n hn
        dsimp only
        unfold Mig.migSet
        split
        · simp
        · split
          · exact setState_few ..
          · simp
          · simp
      · split <;> simp
    · rw [he]; simp

/-- A request costs the callbacks of one purpose. -/
theorem exec_job (cfg : Cfg) (env : Env) {st : St} (hm : ∀ n, st.mig = some n → ∃ a : Mig.MSt, n = a.num) (m : Msg) :
    ∃ w, Job (portions m.body) (mappings st) w (mappings (exec cfg env st m).st) (calls (exec cfg env st m).evs) := by
  refine exec_elim (P := fun d => ∃ w, Job (portions m.body) (mappings st) w (mappings d.st) (calls d.evs)) cfg env st m
    (fun _ _ => ⟨_, .none⟩) (fun c _ h => ⟨_, map_job cfg env st c h _ _⟩) (fun c _ h => ⟨_, unmap_job cfg env st c h _ _⟩)
    (fun _ => ⟨_, .none⟩) (fun _ => ⟨_, .none⟩) (fun _ => ⟨_, .none⟩) (fun _ => ⟨_, .none⟩) (fun _ => ⟨_, irq_job ..⟩)
    (fun _ => ⟨_, access_job ..⟩) (fun _ => ⟨_, access_job ..⟩) ?_ (fun _ => ⟨_, feature_job hm cfg _ _⟩) ?_ ?_ (fun _ => ⟨_, .none⟩)
  · intro _
    refine ⟨.reset, ?_⟩
    have hk : mappings (deviceReset cfg env st .device).1 = mappings st := by
      unfold mappings
      rw [(deviceReset_tables cfg env st .device).1]
    dsimp only
    rw [hk]
    unfold deviceReset
    by_cases h : cfg.hasReset = true
    · rw [if_pos h]
      dsimp only
      refine ⟨fun c hc => ?_, ?_, by simp⟩
      · have : c ∈ [Call.reset .device] := by cases hr : env.resetCb .device <;> rw [hr] at hc <;> exact hc
        cases List.mem_singleton.mp this
        rfl
      · cases env.resetCb .device <;> exact Nat.le_refl _
    · rw [if_neg h]
      exact ⟨(fun c h => by cases h), Nat.zero_le _, by simp⟩
  · intro _
    refine ⟨.data, ?_, ?_, by simp [migRead, Done.pure]⟩
    · intro c hc
      replace hc := (show calls (migRead env st m.body m.fds).evs = _ from calls_data _ _) ▸ hc
      obtain ⟨v, _, rfl⟩ := List.mem_map.mp hc
      rfl
    · rw [show calls (migRead env st m.body m.fds).evs = _ from calls_data _ _, List.length_map]
      exact dataRead_few ..
  · intro _
    refine ⟨.data, ?_, ?_, by simp [migWrite, Done.pure]⟩
    · intro c hc
      replace hc := (show calls (migWrite env st m.body m.fds).evs = _ from calls_data _ _) ▸ hc
      obtain ⟨v, _, rfl⟩ := List.mem_map.mp hc
      rfl
    · rw [show calls (migWrite env st m.body m.fds).evs = _ from calls_data _ _, List.length_map]
      exact dataWrite_few ..

/-! ## Calls -/

/-- What losing the client costs with `s` mappings; `q`: the device may be asked to be quiet. -/
def Leave (q : Bool) (s : Nat) (l : List Call) : Prop :=
  ∃ b y z, l = b ++ y ++ z ∧ (∀ c ∈ b, c.work = .pause) ∧ b.length ≤ q.toNat ∧ (∀ c ∈ y, c.work = .unregister) ∧ y.length ≤ s ∧
    (∀ c ∈ z, c.work = .bye) ∧ z.length ≤ 1

theorem Leave.nil {q : Bool} {s : Nat} : Leave q s [] :=
  ⟨[], [], [], rfl, (fun c h => by cases h), Nat.zero_le _, (fun c h => by cases h), Nat.zero_le _, (fun c h => by cases h), Nat.zero_le _⟩

theorem leave_resetQuiesced (cfg : Cfg) (env : Env) (st : St) (q : Bool) : Leave q (mappings st) (calls (resetQuiesced cfg env st).evs) := by
  unfold resetQuiesced
  cases hx : dropDma cfg st.dma with
  | err x => exact .nil
  | fault x => exact .nil
  | ok x =>
    obtain ⟨d, ev1⟩ := x
    dsimp only
    have h1 : (∀ c ∈ calls (ev1.flatMap (ofDma st.quiesced)), c.work = .unregister) ∧
        (calls (ev1.flatMap (ofDma st.quiesced))).length ≤ mappings st := by
      unfold dropDma at hx
      unfold mappings
      cases hd : st.dma with
      | none => rw [hd] at hx; cases hx; exact ⟨(fun c h => by cases h), Nat.zero_le _⟩
      | some c =>
        rw [hd] at hx
        dsimp only at hx
        unfold Dma.removeAll at hx
        cases hd : Dma.dropAll cfg.dma.hasUnreg c.regions with
        | err e => rw [hd] at hx; cases hx
        | fault e => rw [hd] at hx; cases hx
        | ok ev =>
          rw [hd] at hx
          cases hx
          rw [Dma.dropAll_evs _ hd]
          exact calls_drops ..
    have h2 : ∀ st', (∀ c ∈ calls (deviceReset cfg env st' .lostConn).2.2, c.work = .bye) ∧
        (calls (deviceReset cfg env st' .lostConn).2.2).length ≤ 1 := by
      intro st'
      unfold deviceReset
      by_cases hr : cfg.hasReset = true
      · rw [if_pos hr]
        dsimp only
        cases env.resetCb .lostConn
        all_goals
          refine ⟨fun c h => ?_, Nat.le_refl _⟩
          cases List.mem_singleton.mp (show c ∈ [Call.reset .lostConn] from h)
          rfl
      · rw [if_neg hr]; exact ⟨(fun c h => by cases h), Nat.zero_le _⟩
    have h3 : Leave q (mappings st) (calls (ev1.flatMap (ofDma st.quiesced)) ++
        calls (deviceReset cfg env { st with dma := d } .lostConn).2.2) :=
      ⟨[], _, _, rfl, (fun c h => by cases h), Nat.zero_le _, h1.1, h1.2, (h2 _).1, (h2 _).2⟩
    cases hr : Irq.reset cfg.irq (deviceReset cfg env { st with dma := d } .lostConn).1.irqs with
    | err x => dsimp only; rw [calls_append]; exact h3
    | fault x => dsimp only; rw [calls_append]; exact h3
    | ok y =>
      dsimp only
      rw [calls_append, calls_append, calls_append, calls_ofIrq _ (reset_state (st' := y.1) (l := y.2) hr), List.append_nil,
        show calls [Ev.detach] = [] from rfl, List.append_nil]
      exact h3

theorem calls_ask (r : Option Nat) (q : Bool) : calls (bracket .quiesce (.quiesce r) q) = [.quiesce r] := rfl

theorem ask_work (r : Option Nat) : ∀ c ∈ [Call.quiesce r], c.work = .pause := fun c h => by cases List.mem_singleton.mp h; rfl

theorem leave_resetCtx (cfg : Cfg) (env : Env) (k : Nat) (st : St) :
    Leave (decide (st.pending = .none)) (mappings st) (calls (resetCtx cfg env k st).evs) := by
  have h0 := leave_resetQuiesced cfg env st false
  unfold resetCtx
  by_cases hq : cfg.hasQuiesce = true ∧ st.pending = .none
  · rw [if_pos hq, decide_eq_true hq.2]
    dsimp only
    have hb : Leave true (mappings st) [.quiesce (env.quiesce k)] :=
      ⟨[.quiesce (env.quiesce k)], [], [], rfl, ask_work _, Nat.le_refl _, (fun c h => by cases h), Nat.zero_le _, (fun c h => by cases h),
        Nat.zero_le _⟩
    cases hk : env.quiesce k with
    | none =>
      dsimp only
      rw [calls_append, calls_ask]
      obtain ⟨b, y, z, h1, h2, h3, h4⟩ := h0
      cases List.length_eq_zero_iff.mp (Nat.le_zero.mp h3)
      rw [h1]
      exact ⟨[.quiesce none], y, z, rfl, ask_work _, Nat.le_refl _, h4⟩
    | some e =>
      rw [hk] at hb
      dsimp only
      by_cases he : e = EBUSY
      · rw [if_pos he]; exact hb
      · rw [if_neg he]; exact hb
  · rw [if_neg hq]; exact leave_resetQuiesced ..

theorem leave_doReply (cfg : Cfg) (env : Env) (k : Nat) (st : St) (hd : Wire.Hdr) (b : Wire.Body) (fds : List (Option Fd)) (err : Nat) :
    Leave (decide (st.pending = .none)) (mappings st) (calls (doReply cfg env k st hd b fds err).evs) := by
  unfold doReply
  by_cases hn : hd.noReply = true
  · rw [if_pos hn]; exact .nil
  rw [if_neg hn]
  dsimp only
  cases (Wire.reply env.snd hd b fds (err % U32)).1 with
  | ok u => dsimp only; rw [calls_sent]; exact .nil
  | error e =>
    dsimp only
    by_cases he : e = ECONNRESET ∨ e = ENOMSG
    · rw [if_pos he]; dsimp only; rw [calls_append, calls_sent]; exact leave_resetCtx ..
    · rw [if_neg he]; dsimp only; rw [calls_sent]; exact .nil

theorem leave_refuse (cfg : Cfg) (env : Env) (k : Nat) (st : St) (hd : Wire.Hdr) (fds : List Fd) (err : Nat) :
    Leave (decide (st.pending = .none)) (mappings st) (calls (refuse cfg env k st hd fds err).evs) := by
  have h := leave_doReply cfg env k st hd (.bytes []) [] err
  unfold refuse
  dsimp only
  by_cases hf : (doReply cfg env k st hd (.bytes []) [] err).res.isFault = true
  · rw [if_pos hf]; exact h
  · rw [if_neg hf]
    dsimp only
    rw [calls_append, calls_append, calls_closes, List.append_nil, show calls [Ev.freed] = [] from rfl, List.append_nil]
    exact h

/-- The callbacks of a call; `q` says how often the device may be asked to be quiet. -/
def Bill (q : Nat) (n s : Nat) (l : List Call) : Prop :=
  ∃ (a x t : List Call) (w : Work) (k : Nat) (b : Bool), l = a ++ x ++ t ∧ (∀ c ∈ a, c.work = .pause) ∧ a.length + b.toNat ≤ q ∧
    Job n s w k x ∧ Leave b k t

theorem Leave.bill {q : Nat} {b : Bool} {n s : Nat} {l : List Call} (h : Leave b s l) (hb : b.toNat ≤ q) : Bill q n s l :=
  ⟨[], [], l, .pause, s, b, rfl, (fun c h => by cases h), by simpa using hb, .none, h⟩

theorem Bill.nil {q n s : Nat} : Bill q n s [] := Leave.bill (b := false) .nil (Nat.zero_le _)

theorem Bill.ask {q n s : Nat} {r : Option Nat} {l : List Call} (h : ∃ (x t : List Call) (w : Work) (k : Nat) (b : Bool), l = x ++ t ∧
    b.toNat + 1 ≤ q ∧ Job n s w k x ∧ Leave b k t) : Bill q n s (.quiesce r :: l) := by
  obtain ⟨x, t, w, k, b, rfl, h1, h2, h3⟩ := h
  exact ⟨[.quiesce r], x, t, w, k, b, rfl, ask_work r, by simp; omega, h2, h3⟩

theorem pay_handleRequest (cfg : Cfg) (env : Env) (k : Nat) {st : St} (hm : ∀ n, st.mig = some n → ∃ a : Mig.MSt, n = a.num) (m : Msg) :
    ∃ (x t : List Call) (w : Work) (j : Nat), calls (handleRequest cfg env k st m).evs = x ++ t ∧
      Job (portions m.body) (mappings st) w j x ∧ Leave (decide (st.pending = .none)) j t := by
  obtain ⟨w, hj⟩ := exec_job cfg env hm m
  have hp : (exec cfg env st m).st.pending = st.pending :=
    congrArg (fun d => d.st.pending) (exec_pending cfg env st m st.pending)
  unfold handleRequest
  dsimp only
  generalize exec cfg env st m = d at hj hp
  have hx : ∀ l, calls (Ev.exec m.hdr :: l) = calls l := fun l => calls_cons (by simp) l
  by_cases hf : d.res.isFault = true
  · rw [if_pos hf]
    dsimp only
    rw [hx]
    exact ⟨_, [], w, _, (List.append_nil _).symm, hj, .nil⟩
  rw [if_neg hf]
  have h1 := leave_doReply cfg env k d.st m.hdr d.out d.outFds (replyErr d.res)
  rw [hp] at h1
  refine ⟨calls d.evs, _, w, _, ?_, hj, h1⟩
  unfold finish
  dsimp only
  by_cases hf : (doReply cfg env k d.st m.hdr d.out d.outFds (replyErr d.res)).res.isFault = true
  · rw [if_pos hf]
    dsimp only
    rw [List.cons_append, hx, calls_append]
  · rw [if_neg hf]
    dsimp only
    rw [List.cons_append, List.cons_append, List.cons_append, hx, calls_append, calls_append, calls_append, calls_closes, List.append_nil,
      show calls [Ev.freed] = [] from rfl, List.append_nil]

/-- The quiesce callbacks a call may run. -/
def Op.pauses : Op → Nat
  | .run _ _ => 2
  | .transfer _ _ => 1
  | _ => 0

theorem bill_call (cfg : Cfg) {st : St} (hm : ∀ n, st.mig = some n → ∃ a : Mig.MSt, n = a.num) (op : Op) :
    Bill op.pauses (askedPieces st op) (mappings st) (calls (call cfg st op).evs) := by
  have hle : ∀ b : Bool, b.toNat ≤ 1 := fun b => by cases b <;> decide
  cases op with
  | run env i =>
    show Bill 2 _ _ (calls (poll cfg env st i).evs)
    unfold poll
    by_cases h1 : st.pending ≠ .none
    · rw [if_pos h1]; exact .nil
    rw [if_neg h1]
    by_cases h2 : st.conn = false
    · rw [if_pos h2]; exact .nil
    rw [if_neg h2]
    cases i with
    | again => exact .nil
    | lost e leak =>
      dsimp only
      rw [calls_cons (by simp)]
      exact (leave_resetCtx cfg env 0 st).bill (Nat.le_trans (hle _) (by decide))
    | failed e leak => exact .nil
    | bad hd fds e =>
      dsimp only
      rw [calls_cons (by simp)]
      exact (leave_refuse cfg env 0 st hd fds e).bill (Nat.le_trans (hle _) (by decide))
    | req hd body fds =>
      dsimp only
      rw [calls_cons (by simp)]
      change Bill 2 (portions body) _ _
      unfold dispatch
      dsimp only
      by_cases h3 : shouldExec st.mig hd.cmd = false
      · rw [if_pos h3]; exact (leave_refuse ..).bill (Nat.le_trans (hle _) (by decide))
      rw [if_neg h3]
      by_cases h4 : needsQuiesce cfg st ⟨hd, body, fds⟩ = true
      · rw [if_pos h4]
        cases env.quiesce 0 with
        | none =>
          dsimp only
          rw [calls_append, calls_ask]
          obtain ⟨x, t, w, j, h5, h6, h7⟩ := pay_handleRequest cfg env 1 (st := { st with quiesced := true }) hm ⟨hd, body, fds⟩
          rw [h5]
          exact Bill.ask ⟨x, t, w, j, _, rfl, Nat.succ_le_succ (hle _), h6, h7⟩
        | some e =>
          dsimp only
          by_cases he : e = EBUSY
          · rw [if_pos he]
            exact Bill.ask (l := []) ⟨[], [], .pause, _, false, rfl, by decide, .none, .nil⟩
          · rw [if_neg he]
            dsimp only
            rw [calls_append, calls_ask]
            exact Bill.ask ⟨[], _, .pause, _, _, rfl, Nat.succ_le_succ (hle _), .none, leave_refuse ..⟩
      · rw [if_neg h4]
        obtain ⟨x, t, w, j, h5, h6, h7⟩ := pay_handleRequest cfg env 0 hm ⟨hd, body, fds⟩
        dsimp only
        rw [h5]
        exact ⟨[], x, t, w, j, _, rfl, (fun c h => by cases h), by simpa using Nat.le_trans (hle _) (by decide), h6, h7⟩
  | quiesced env e =>
    show Bill 0 _ _ (calls (deviceQuiesced cfg env st e).evs)
    unfold deviceQuiesced
    by_cases h1 : cfg.hasQuiesce = false ∨ st.pending = .none
    · rw [if_pos h1]; exact .nil
    rw [if_neg h1]
    dsimp only
    rw [calls_cons (by simp)]
    by_cases he : e = 0
    · rw [if_pos he]
      cases hpd : st.pending with
      | none => exact .nil
      | msg m =>
        obtain ⟨x, t, w, j, h5, h6, h7⟩ := pay_handleRequest cfg env 0 (st := { st with quiesced := true }) hm m
        have ha : askedPieces st (.quiesced env e) = portions m.body := by simp [askedPieces, Op.subject, hpd]
        rw [ha]
        simp only [hpd] at h5 h7
        dsimp only
        rw [h5]
        exact ⟨[], x, t, w, j, false, rfl, (fun c h => by cases h), by simp, h6, by simpa using h7⟩
      | ctxReset =>
        have h := leave_resetQuiesced cfg env { st with quiesced := true } false
        simp only [hpd] at h
        exact h.bill (Nat.le_refl _)
    · rw [if_neg he]
      cases st.pending with
      | none => exact .nil
      | msg m => dsimp only; rw [calls_append, calls_closes]; exact .nil
      | ctxReset => exact .nil
  | transfer env lost =>
    show Bill 1 _ _ (calls (transfer cfg env st lost).evs)
    unfold transfer
    by_cases h1 : st.pending ≠ .none
    · rw [if_pos h1]; exact .nil
    rw [if_neg h1]
    by_cases h : lost = true ∧ st.conn = true
    · rw [if_pos h]; exact (leave_resetCtx cfg env 0 st).bill (hle _)
    · rw [if_neg h]; exact .nil
  | attach n =>
    show Bill 0 _ _ (calls (attach st n).evs)
    unfold attach
    by_cases h : st.conn = true
    · rw [if_pos h]; exact .nil
    rw [if_neg h]
    cases n <;> exact .nil
  | config f => exact .nil
  | mark sgl =>
    simp only [call]
    cases st.dma with
    | none => exact .nil
    | some c => dsimp only; cases Dma.sglMark c sgl <;> exact .nil
  | trigger wr sub =>
    have : calls (call cfg st (.trigger wr sub)).evs = [] := calls_ofIrq _ (trigger_state wr st.irqs sub)
    rw [this]
    exact .nil

theorem count_none {w : Work} {l : List Call} (v : Work) (h : ∀ c ∈ l, c.work = v) (hw : w ≠ v) : l.countP (fun c => c.work = w) = 0 := by
  rw [List.countP_eq_zero]
  intro c hc
  rw [h c hc]
  simpa using Ne.symm hw

/-- C115: in one call the device is asked to be quiet at most twice (once during a transfer of its own, never while it reports that it is
quiet); one mapping is announced; as many are withdrawn as there are, with the new one; there is one reset on request and one for a lost
client; three migration states are entered; migration data are moved once; one range of interrupts is masked; a region is accessed once, the
config space once for each byte.  In all, no more than the three pauses and resets, the mappings, and the three states or the pieces. -/
theorem C115_call (cfg : Cfg) {st : St} (hm : ∀ n, st.mig = some n → ∃ a : Mig.MSt, n = a.num) (op : Op) :
    (calls (call cfg st op).evs).countP (fun c => c.work = .pause) ≤ op.pauses ∧
      (∀ w, (calls (call cfg st op).evs).countP (fun c => c.work = w) ≤ w.limit (askedPieces st op) (mappings st)) ∧
      (calls (call cfg st op).evs).length ≤ mappings st + max 3 (askedPieces st op) + 3 ∧
      ∃ v, ∀ c ∈ calls (call cfg st op).evs, c.work ∈ [v, .pause, .unregister, .bye] := by
  obtain ⟨a, x, t, w, k, b, hl, ha, hq, hj, hb⟩ := bill_call cfg hm op
  obtain ⟨b', y, z, rfl, hb1, hb2, hy1, hy2, hz1, hz2⟩ := hb
  have hle : op.pauses ≤ 2 := by cases op <;> simp [Op.pauses]
  generalize calls (call cfg st op).evs = l at hl
  generalize askedPieces st op = n at hj ⊢
  generalize mappings st = s at hj ⊢
  subst hl
  have hx := hj.few
  have hk := hj.left
  have hcount : ∀ (v : Work) (l : List Call), l.countP (fun c => c.work = v) ≤ l.length := fun v l => List.countP_le_length
  have cnt : ∀ v, (a ++ x ++ (b' ++ y ++ z)).countP (fun c => c.work = v) = a.countP (fun c => c.work = v) +
      x.countP (fun c => c.work = v) + (b'.countP (fun c => c.work = v) + y.countP (fun c => c.work = v) + z.countP (fun c => c.work = v)) := by
    intro v; simp only [List.countP_append]
  have hpause : (a ++ x ++ (b' ++ y ++ z)).countP (fun c => c.work = .pause) ≤ op.pauses := by
    rw [cnt, count_none _ hy1 (by decide), count_none _ hz1 (by decide)]
    have h1 := hcount .pause a
    have h2 := hcount .pause b'
    have h3 : x.countP (fun c => c.work = .pause) = 0 := by
      by_cases hw : w = .pause
      · subst hw
        have := hcount .pause x
        simp only [Work.cap] at hx
        omega
      · exact count_none _ hj.same (Ne.symm hw)
    omega
  refine ⟨hpause, ?_, ?_, w, ?_⟩
  · intro v
    by_cases hv : v = .pause
    · subst hv; exact Nat.le_trans hpause hle
    rw [cnt, count_none _ ha hv, count_none _ hb1 hv]
    have h1 := hcount v x
    have h2 := hcount v y
    have h3 := hcount v z
    by_cases hvw : v = w
    · subst hvw
      cases v with
      | unregister =>
        rw [count_none _ hz1 (by decide)]
        simp only [Work.limit, if_true, reduceCtorEq, if_false] at hk ⊢
        omega
      | pause => exact absurd rfl hv
      | bye =>
        rw [count_none _ hy1 (by decide)]
        simp only [Work.limit, Work.cap] at hx ⊢
        omega
      | _ =>
        rw [count_none _ hy1 (by decide), count_none _ hz1 (by decide)]
        simp only [Work.cap] at hx
        omega
    · rw [count_none _ hj.same hvw]
      cases v with
      | unregister =>
        rw [count_none _ hz1 (by decide)]
        simp only [Work.limit] at hk ⊢
        split at hk <;> split at hk <;> omega
      | bye => rw [count_none _ hy1 (by decide)]; simp only [Work.limit]; omega
      | _ => rw [count_none _ hy1 (by decide), count_none _ hz1 (by decide)]; exact Nat.zero_le _
  · simp only [List.length_append]
    cases w <;> simp only [Work.limit, Work.cap, if_true, if_false, reduceCtorEq] at hx hk <;> cases b <;> simp only [Bool.toNat] at hb2 hq <;> omega
  · intro c hc
    simp only [List.mem_append] at hc
    rcases hc with (hc | hc) | (hc | hc) | hc
    · rw [ha c hc]; simp
    · rw [hj.same c hc]; simp
    · rw [hb1 c hc]; simp
    · rw [hy1 c hc]; simp
    · rw [hz1 c hc]; simp

/-- C115 over histories: the mappings are at most those the device allowed. -/
theorem C115_history (cfg : Cfg) (mig : Bool) (dma : Option (Nat × Nat)) (pci : Pci.Pci) (pre : List Op) (op : Op)
    (ho : ∀ o ∈ pre, o.OSOk) :
    mappings (run cfg (init cfg mig dma pci) pre).1 ≤ (dma.map (·.1)).getD 0 ∧
      (∀ w, (calls (call cfg (run cfg (init cfg mig dma pci) pre).1 op).evs).countP (fun c => c.work = w) ≤
        w.limit (askedPieces (run cfg (init cfg mig dma pci) pre).1 op) ((dma.map (·.1)).getD 0)) ∧
      (calls (call cfg (run cfg (init cfg mig dma pci) pre).1 op).evs).length ≤
        (dma.map (·.1)).getD 0 + max 3 (askedPieces (run cfg (init cfg mig dma pci) pre).1 op) + 3 := by
  have h1 := (core_kept cfg dma pci).run pre (core_init cfg mig dma pci) ho
  generalize (run cfg (init cfg mig dma pci) pre).1 = st at h1
  have h2 : mappings st ≤ (dma.map (·.1)).getD 0 := by
    obtain ⟨⟨ops, _, h⟩, _⟩ := h1.tables
    unfold mappings
    rw [h]
    cases dma with
    | none => exact Nat.le_refl _
    | some x => exact (Dma.C01_limits cfg.dma x.1 x.2 ops).1
  obtain ⟨_, h3, h4, _⟩ := C115_call cfg h1.mig op
  refine ⟨h2, fun w => Nat.le_trans (h3 w) ?_, by omega⟩
  cases w <;> simp only [Work.limit] <;> omega

section
open Demo

/-- Two mappings; a reset whose reply finds the client gone: asked twice to be quiet, two mappings withdrawn, two resets. -/
def Demo.two : List Op := [.run env (req 1 2 0 (mapBody 0x100000) [5]), .run env (req 2 2 0 (mapBody 0x400000) [6])]

example : mappings (run cfg Demo.st Demo.two).1 = 2 ∧
    (calls (call cfg (run cfg Demo.st Demo.two).1 (.run dead (req 3 13 0 [] []))).evs).map Call.work =
      [.pause, .reset, .pause, .unregister, .unregister, .bye] ∧
    (calls (call cfg (run cfg Demo.st Demo.two).1 (.run dead (req 3 3 0 (unmapBody 0x400000) []))).evs).map Call.work =
      [.pause, .unregister, .pause, .unregister, .bye] ∧
    (calls (call cfg (run cfg Demo.st [.run env (req 1 16 0 (stateBody 6) [])]).1 (.run env (req 2 16 0 (stateBody 4) []))).evs).map
      Call.work = [.pause, .state, .state, .state] := by
  refine ⟨?_, ?_, ?_, ?_⟩ <;> decide +kernel

end

end Verif.Server
