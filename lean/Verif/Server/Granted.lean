import Verif.Server.Cause

/-!
# C119: what a callback of the device may take for granted

A device need not check what it is called with: each callback is one it provided, and its arguments are within what the device
was set up for. -/

namespace Verif.Pci
open Verif

/-- The device provided what is called; a callback for the config space gets bytes. -/
def Provided (dev : Dev) (full : Prop) : Ev → Prop
  | .cb _ b _ => dev.cb.isSome = true ∧ (full → 0 < b.length)
  | .flr => dev.reset.isSome = true

theorem capWrite_provided {dev : Dev} {alloc : Nat} {m : Mem} {c : Cap} {buf : List Byte} {count off : Nat}
    (h : Ev.flr ∈ (capWrite dev alloc m c buf count off).2.2) : dev.reset.isSome = true := by
  unfold capWrite at h
  by_cases h1 : c.off + c.size > alloc
  · rw [if_pos h1] at h; simp at h
  rw [if_neg h1] at h
  by_cases h2 : c.ext = true
  · rw [if_pos h2] at h
    by_cases h3 : c.id = EXT_DSN
    · rw [if_pos h3] at h; simp at h
    rw [if_neg h3] at h
    by_cases h4 : off + count > alloc
    · rw [if_pos h4] at h; simp at h
    · rw [if_neg h4] at h; simp at h
  rw [if_neg h2] at h
  by_cases h3 : c.id = ID_PM
  · rw [if_pos h3] at h; simp at h
  rw [if_neg h3] at h
  by_cases h4 : c.id = ID_EXP
  · rw [if_pos h4] at h
    unfold writePx at h
    by_cases h5 : count ≠ 2
    · rw [if_pos h5] at h; simp at h
    rw [if_neg h5] at h
    by_cases h6 : off - c.off = 8
    · rw [if_pos h6] at h
      revert h
      unfold writePxdc
      dsimp only
      generalize setFields _ _ _ _ = x
      generalize wrM _ _ _ = y
      intro h
      split_ifs at h
      · simp at h
      · cases hr : dev.reset with
        | none => rw [hr] at h; simp at h
        | some r => rfl
      · simp at h
    rw [if_neg h6] at h
    split_ifs at h <;> simp at h
  rw [if_neg h4] at h
  split_ifs at h <;> simp at h

theorem serve_provided {dev : Dev} {p : Pci} {o : Owner} {m : Mem} {buf : List Byte} {count off : Nat} {write : Bool}
    (hc : 0 < count) : ∀ e ∈ (serve dev p o m buf count off write).evs, Provided dev (count ≤ buf.length) e := by
  intro e he
  have hro : ∀ n, e ∉ (readOut p m n off).evs := by
    intro n
    unfold readOut
    split_ifs <;> simp
  have hns : e ∈ (nonstd dev p m buf count off write).evs → Provided dev (count ≤ buf.length) e := by
    unfold nonstd
    cases hd : dev.cb with
    | some cb =>
      intro h
      cases List.mem_singleton.mp h
      refine ⟨by rw [hd]; rfl, fun hf => ?_⟩
      cases write
      · simpa using hc
      · simp only [if_true, List.length_take]; omega
    | none =>
      dsimp only
      intro h
      split_ifs at h
      · cases h
      · exact absurd h (hro _)
  unfold serve at he
  cases o with
  | hdr =>
    exfalso
    dsimp only at he
    unfold hdrAccess at he
    by_cases h1 : count > 64
    · rw [if_pos h1] at he; simp at he
    rw [if_neg h1] at he
    cases write with
    | true =>
      rw [if_pos rfl] at he
      cases hw : (hdrWrite p.bar m buf off).2 <;> rw [hw] at he <;> simp at he
    | false => exact hro _ he
  | dflt => exact hns he
  | cap =>
    dsimp only at he
    unfold capAccess at he
    cases hf : capFind p off count with
    | none => rw [hf] at he; simp at he
    | some c =>
      rw [hf] at he
      dsimp only at he
      by_cases h1 : off < c.off ∨ count > c.size
      · rw [if_pos h1] at he; simp at he
      rw [if_neg h1] at he
      by_cases h2 : write = true ∧ c.ro = true
      · rw [if_pos h2] at he; simp at he
      rw [if_neg h2] at he
      by_cases h3 : c.cbk = true
      · rw [if_pos h3] at he; exact hns he
      rw [if_neg h3] at he
      by_cases h4 : write = false
      · rw [if_pos h4] at he; exact absurd he (hro _)
      rw [if_neg h4] at he
      by_cases h5 : off - c.off < c.hdr
      · rw [if_pos h5] at he; simp at he
      rw [if_neg h5] at he
      cases e with
      | cb o b w => exact absurd he capWrite_cb
      | flr => exact capWrite_provided he

theorem loop_provided {dev : Dev} {p : Pci} (hb : Bounded p) (write : Bool) :
    ∀ (fuel : Nat) (m : Mem) (buf : List Byte) (count off done : Nat), off + count < U64 →
      ∀ e ∈ (loop dev p write fuel m buf count off done).evs, Provided dev (count ≤ buf.length) e := by
  intro fuel
  induction fuel with
  | zero => intro m buf count off done _ e h; simp [loop] at h
  | succ fuel ih =>
    intro m buf count off done hlt e h
    unfold loop at h
    by_cases h0 : count = 0
    · rw [if_pos h0] at h; simp at h
    rw [if_neg h0] at h
    cases hs : nextSegment p count off write with
    | none => rw [hs] at h; simp at h
    | some x =>
      obtain ⟨o, size⟩ := x
      rw [hs] at h
      dsimp only at h
      obtain ⟨hpos, hle, _, _, _⟩ := nextSegment_spec hb (by omega) hlt hs
      have here : e ∈ (serve dev p o m buf size off write).evs → Provided dev (count ≤ buf.length) e := by
        intro hf
        have := serve_provided hpos e hf
        cases e with
        | flr => exact this
        | cb o' b w => exact ⟨this.1, fun hx => this.2 (by omega)⟩
      cases hr : (serve dev p o m buf size off write).ret with
      | err e => rw [hr] at h; exact here h
      | fault f => rw [hr] at h; exact here h
      | ok n =>
        rw [hr] at h
        dsimp only at h
        by_cases h1 : n = 0
        · rw [if_pos h1] at h; exact here h
        rw [if_neg h1] at h
        by_cases h2 : n > size
        · rw [if_pos h2] at h; exact here h
        rw [if_neg h2] at h
        rcases List.mem_append.mp h with h | h
        · exact here h
        · have := ih _ _ _ _ _ (by omega) e h
          cases e with
          | flr => exact this
          | cb o' b w =>
            refine ⟨this.1, fun hx => this.2 ?_⟩
            rw [List.length_drop]; omega

end Verif.Pci

namespace Verif.Server
open Verif
open Verif.Dma (Fd)

/-! ## The contract -/

/-- What a callback may rely on.  `mig`: `vfu_setup_device_migration_callbacks` was called; `dma`: maximum number and size of
DMA regions, if `vfu_setup_device_dma` was called. -/
def Granted (cfg : Cfg) (mig : Bool) (dma : Option (Nat × Nat)) : Call → Prop
  | .quiesce _ => cfg.hasQuiesce = true
  | .reset _ => cfg.hasReset = true
  | .dmaRegister i => cfg.dma.hasReg = true ∧ ∃ x, dma = some x ∧ i.len ≤ x.2
  | .dmaUnregister i => cfg.dma.hasUnreg = true ∧ ∃ x, dma = some x ∧ i.len ≤ x.2
  | .migState _ => mig = true
  | .migData (.read size room) => mig = true ∧ size ≤ room
  | .migData (.write _) => mig = true
  | .region r off buf _ => ∃ reg, cfg.tbl[r]? = some reg ∧ reg.hasCb = true ∧ 0 < buf.length ∧ buf.length ≤ 1048576 ∧
      off + buf.length ≤ reg.size
  | .irqState i s n _ => i < 3 ∧ cfg.irq.hasCb i = true ∧ 0 < n ∧ s + n ≤ cfg.irq.cnt i

/-- All callbacks among the events keep the contract. -/
def Vouched (cfg : Cfg) (mig : Bool) (dma : Option (Nat × Nat)) (l : List Ev) : Prop := ∀ c ∈ calls l, Granted cfg mig dma c

section
variable {cfg : Cfg} {mig : Bool} {dma : Option (Nat × Nat)}

theorem fine_nil : Vouched cfg mig dma [] := fun _ h => by cases h

theorem Vouched.append {a b : List Ev} (ha : Vouched cfg mig dma a) (hb : Vouched cfg mig dma b) : Vouched cfg mig dma (a ++ b) := by
  intro c h
  rw [calls_append] at h
  exact (List.mem_append.mp h).elim (ha c) (hb c)

theorem fine_quiet {l : List Ev} (h : calls l = []) : Vouched cfg mig dma l := fun c hc => by rw [h] at hc; cases hc

theorem Vouched.cons {e : Ev} {l : List Ev} (he : calls [e] = []) (h : Vouched cfg mig dma l) : Vouched cfg mig dma (e :: l) :=
  (fine_quiet (l := [e]) he).append h

theorem fine_bracket {k : CbType} {c : Call} {q : Bool} (h : Granted cfg mig dma c) : Vouched cfg mig dma (bracket k c q) := by
  intro x hx
  have : x = c := by simpa [calls, bracket] using hx
  rw [this]; exact h

theorem fine_deviceReset (env : Env) (st : St) (r : Reason) : Vouched cfg mig dma (deviceReset cfg env st r).2.2 := by
  unfold deviceReset
  by_cases h : cfg.hasReset = true
  · rw [if_pos h]
    dsimp only
    cases env.resetCb r <;> exact fine_bracket h
  · rw [if_neg h]; exact fine_nil

theorem fine_drop {q : Bool} {x : Nat × Nat} (hd : dma = some x) {rs : List Dma.Region} (hr : ∀ r ∈ rs, r.info.len ≤ x.2) :
    Vouched cfg mig dma ((rs.flatMap (Dma.dropEvs cfg.dma.hasUnreg)).flatMap (ofDma q)) := by
  intro c hc
  have hev : ∀ e ∈ rs.flatMap (Dma.dropEvs cfg.dma.hasUnreg), (∀ i, e ≠ .register i) ∧
      ∀ i, e = .unregister i → cfg.dma.hasUnreg = true ∧ i.len ≤ x.2 := by
    intro e he
    obtain ⟨r, h1, h2⟩ := List.mem_flatMap.mp he
    refine ⟨(dropEvs_mem h2).1, fun i hi => ⟨?_, by rw [(dropEvs_mem h2).2 i hi]; exact hr r h1⟩⟩
    subst hi
    unfold Dma.dropEvs at h2
    rcases List.mem_append.mp h2 with h | h
    · cases hu : cfg.dma.hasUnreg with
      | true => rfl
      | false => rw [hu] at h; cases h
    · cases hf : r.fd with
      | none => rw [hf] at h; cases h
      | some y => rw [hf] at h; simp at h
  rcases calls_ofDma hc with ⟨i, rfl, hi⟩ | ⟨i, rfl, hi⟩
  · exact absurd rfl ((hev _ hi).1 i)
  · exact ⟨((hev _ hi).2 i rfl).1, x, hd, ((hev _ hi).2 i rfl).2⟩

/-- The regions of a table reached from the empty one are within the size limit. -/
theorem reached_len {d : Option Dma.Ctl} {i : Irq.Irqs} (h : Reached cfg dma d i) {c : Dma.Ctl} (hd : d = some c) :
    ∃ x, dma = some x ∧ c.maxSize = x.2 ∧ ∀ r ∈ c.regions, r.info.len ≤ x.2 := by
  obtain ⟨⟨ops, _, h2⟩, _⟩ := h
  cases hx : dma with
  | none => rw [hx, hd] at h2; cases h2
  | some x =>
    rw [hx, hd] at h2
    simp only [Option.map_some, Option.some.injEq] at h2
    subst h2
    exact ⟨x, rfl, (Dma.max_run cfg.dma ops _).2, (Dma.C01_limits cfg.dma x.1 x.2 ops).2⟩

theorem fine_reset {st : St} (hr : Reached cfg dma st.dma st.irqs) (env : Env) :
    Vouched cfg mig dma (resetQuiesced cfg env st).evs := by
  unfold resetQuiesced
  cases hd : dropDma cfg st.dma with
  | err e => exact fine_nil
  | fault f => exact fine_nil
  | ok x =>
    obtain ⟨d, ev1⟩ := x
    dsimp only
    have h1 : Vouched cfg mig dma (ev1.flatMap (ofDma st.quiesced)) := by
      cases hs : st.dma with
      | none => rw [hs] at hd; cases hd; exact fine_nil
      | some c =>
        rw [hs] at hd
        simp only [dropDma, Dma.removeAll] at hd
        obtain ⟨y, hy, _, hlen⟩ := reached_len hr hs
        cases he : Dma.dropAll cfg.dma.hasUnreg c.regions with
        | err e => rw [he] at hd; cases hd
        | fault f => rw [he] at hd; cases hd
        | ok ev =>
          rw [he] at hd
          cases hd
          rw [Dma.dropAll_evs _ he]
          exact fine_drop hy hlen
    have h2 := fine_deviceReset (mig := mig) (dma := dma) (cfg := cfg) env { st with dma := d } .lostConn
    cases h3 : Irq.reset cfg.irq (deviceReset cfg env { st with dma := d } .lostConn).1.irqs with
    | err e => exact h1.append h2
    | fault f => exact h1.append h2
    | ok y =>
      refine ((h1.append h2).append ?_).append (fine_quiet rfl)
      intro c hc
      obtain ⟨e, he, hce⟩ := calls_flatMap hc
      have := reset_state (st' := y.1) (l := y.2) h3 e he
      cases e with
      | close fd => cases hce
      | signal fd => cases hce
      | state i s n k => exact absurd rfl (this i s n k)

theorem fine_resetCtx {st : St} (hr : Reached cfg dma st.dma st.irqs) (env : Env) (k : Nat) :
    Vouched cfg mig dma (resetCtx cfg env k st).evs := by
  unfold resetCtx
  by_cases hc : cfg.hasQuiesce = true ∧ st.pending = .none
  · rw [if_pos hc]
    dsimp only
    have hb : Vouched cfg mig dma (bracket .quiesce (.quiesce (env.quiesce k)) st.quiesced) := fine_bracket hc.1
    cases hk : env.quiesce k with
    | none => rw [hk] at hb; exact hb.append (fine_reset hr env)
    | some e =>
      rw [hk] at hb
      dsimp only
      by_cases he : e = EBUSY
      · rw [if_pos he]; exact hb
      · rw [if_neg he]; exact hb
  · rw [if_neg hc]; exact fine_reset hr env

theorem fine_sent (l : List Wire.Sent) : Vouched cfg mig dma (l.map Ev.sent) := by
  intro c h
  obtain ⟨q, hq⟩ := mem_calls.mp h
  obtain ⟨x, _, hx⟩ := List.mem_map.mp hq
  cases hx

theorem fine_doReply {st : St} (hr : Reached cfg dma st.dma st.irqs) (env : Env) (k : Nat) (hd : Wire.Hdr) (b : Wire.Body)
    (fds : List (Option Fd)) (err : Nat) : Vouched cfg mig dma (doReply cfg env k st hd b fds err).evs := by
  unfold doReply
  by_cases hn : hd.noReply = true
  · rw [if_pos hn]; exact fine_nil
  rw [if_neg hn]
  dsimp only
  cases (Wire.reply env.snd hd b fds (err % U32)).1 with
  | ok u => exact fine_sent _
  | error e =>
    dsimp only
    by_cases he : e = ECONNRESET ∨ e = ENOMSG
    · rw [if_pos he]; exact (fine_sent _).append (fine_resetCtx hr env k)
    · rw [if_neg he]; exact fine_sent _

theorem fine_refuse {st : St} (hr : Reached cfg dma st.dma st.irqs) (env : Env) (k : Nat) (hd : Wire.Hdr) (fds : List Fd)
    (err : Nat) : Vouched cfg mig dma (refuse cfg env k st hd fds err).evs := by
  have h := fine_doReply (mig := mig) hr env k hd (.bytes []) [] err
  unfold refuse
  dsimp only
  by_cases hf : (doReply cfg env k st hd (.bytes []) [] err).res.isFault = true
  · rw [if_pos hf]; exact h
  · rw [if_neg hf]; exact (h.append (fine_quiet (calls_closes _))).append (fine_quiet rfl)

/-! ## Requests -/

/-- The callback of an interrupt request. -/
theorem handleSet_granted (hi : ∀ i, cfg.irq.cnt i < U32 - 1) (wr : Nat → Option Nat) (st : Irq.Irqs) (body : List Byte)
    (fds : List (Option Fd)) {i s n : Nat} {k : Bool} (h : Irq.Ev.state i s n k ∈ (Irq.handleSet cfg.irq wr st body fds).evs) :
    Granted cfg mig dma (.irqState i s n k) := by
  obtain ⟨g1, g2, g3, g4⟩ := handleSet_mem _ _ _ _ _ h
  revert h
  unfold Irq.handleSet
  cases hv : Irq.validate cfg.irq body fds.length with
  | err e => exact fun h => by cases h
  | fault e => exact fun h => by cases h
  | ok u =>
    have ho := (Irq.validate_ok hi body fds.length).1 hv
    have ei : (Irq.Req.ofBytes body).index = i := g1.symm
    have es : (Irq.Req.ofBytes body).start = s := g2.symm
    have en : (Irq.Req.ofBytes body).count = n := g3.symm
    have ea : (Irq.Req.ofBytes body).action = if k then 8 else 16 := g4
    have h32 : (Irq.Req.ofBytes body).action ≠ 32 := by rw [ea]; cases k <;> decide
    have r1 := ho.index
    have r2 := ho.special
    have r3 := ho.zero
    have r4 := ho.range
    rw [ei, es, en] at r4
    rw [ei] at r1 r2
    rw [en] at r3
    intro h
    refine ⟨?_, ?_, ?_, r4⟩
    · rcases Nat.lt_or_ge i 3 with h | h
      · exact h
      · exact absurd (r2 (by omega)).1 h32
    · by_contra hcb
      dsimp only at h
      rw [if_pos (by rw [ea]; cases k <;> decide)] at h
      unfold Irq.setState at h
      rw [ei, if_neg (by show ¬ i ≥ 5; omega), if_pos (by simpa using hcb)] at h
      cases h
    · rcases Nat.eq_zero_or_pos n with h | h
      · exact absurd (r3 h).2.1 h32
      · exact h

variable {p : Pci.Pci} (hsz : ∀ r ∈ cfg.tbl, r.size < U32) (hl : LayoutOk cfg.tbl p)
include hsz hl

theorem fine_access {env : Env} {st : St} {w : Bool} {body : List Byte} {fds : List Fd}
    (hp : layout st.pci = layout p) : Vouched cfg mig dma (access cfg env st w body fds).evs := by
  have hl' := layoutOk_congr hp hl
  unfold access
  dsimp only [Done.pure]
  generalize hg : handlers cfg env st.pci = hd
  unfold Region.handleAccess
  by_cases h0 : body = []
  · rw [if_pos h0]; exact fine_nil
  rw [if_neg h0]
  by_cases hv : Region.validAccess cfg.tbl (stopCopy st.mig) w body = false
  · rw [if_pos hv]; exact fine_nil
  rw [if_neg hv]
  obtain ⟨r, ho⟩ := (Region.validAccess_iff hsz _ _ _).1 (by simpa using hv)
  dsimp only
  by_cases h1 : leAt body 12 4 = 0
  · rw [if_pos h1]; exact fine_nil
  rw [if_neg h1]
  by_cases h2 : env.alloc = false
  · rw [if_pos h2]; exact fine_nil
  rw [if_neg h2, ho.region]
  dsimp only
  have hlen : (if w = true then body.drop 16 else List.replicate (leAt body 12 4) 0#8).length = leAt body 12 4 := by
    cases w with
    | true =>
      have := ho.payload rfl
      simp only [if_true, List.length_drop]; omega
    | false => simp
  have hcnt := ho.count
  have hbd := ho.bound
  have key : Vouched cfg mig dma (afterCalls cfg env st.quiesced st.pci (Region.regionAccess hd r (leAt body 8 4)
      (if w = true then body.drop 16 else List.replicate (leAt body 12 4) 0#8) (leAt body 0 8) w).2.2).2 := by
    unfold Region.regionAccess
    by_cases hcf : leAt body 8 4 = Region.CFG_IDX ∧ r.flags &&& Region.FLAG_ALWAYS_CB = 0
    · rw [if_pos hcf]
      dsimp only [afterCalls]
      rw [List.append_nil]
      have hin : leAt body 0 8 + leAt body 12 4 < U64 := by
        have h2 := hsz r (List.mem_of_getElem? ho.region)
        simp only [U32] at h2
        simp only [U64]
        omega
      intro c hcl
      obtain ⟨x, hx, hcx⟩ := calls_flatMap hcl
      unfold Pci.access at hx
      rw [hlen] at hx
      have hw := Pci.loop_within hl'.bounded w _ _ _ _ _ _ hin x hx
      have hq := Pci.loop_provided hl'.bounded w _ _ _ _ _ _ hin x hx
      cases x with
      | flr =>
        have : c = .reset .flr := by simpa [calls, ofPci, bracket] using hcx
        rw [this]
        have hq : (pciDev cfg env).reset.isSome = true := hq
        unfold pciDev at hq
        dsimp only at hq
        by_contra hn
        have hn : ¬ cfg.hasReset = true := hn
        rw [if_neg hn] at hq
        cases hq
      | cb o b w' =>
        obtain ⟨rfl, i, g2, g3, g4⟩ := hw
        have : c = .region Region.CFG_IDX o b w' := by simpa [calls, ofPci, bracket] using hcx
        rw [this]
        obtain ⟨q1, q2⟩ := hq
        have hreg : cfg.tbl[Region.CFG_IDX]? = some r := by rw [← hcf.1]; exact ho.region
        refine ⟨r, hreg, ?_, q2 (Nat.le_of_eq hlen.symm), by omega, by omega⟩
        unfold pciDev at q1
        dsimp only at q1
        by_contra hn
        rw [hreg, if_neg (by simpa using hn)] at q1
        cases q1
    · rw [if_neg hcf]
      by_cases hcb : r.hasCb = false
      · rw [if_pos hcb]; exact fine_nil
      · rw [if_neg hcb]
        intro c hcl
        dsimp only [afterCalls] at hcl
        have e : c = Call.region (leAt body 8 4) (leAt body 0 8)
          (if w = true then body.drop 16 else List.replicate (leAt body 12 4) 0#8) w := by simpa [calls] using hcl
        rw [e]
        exact ⟨r, ho.region, by simpa using hcb, by omega, by omega, by omega⟩
  generalize Region.regionAccess hd r (leAt body 8 4)
      (if w = true then body.drop 16 else List.replicate (leAt body 12 4) 0#8) (leAt body 0 8) w = o at key
  obtain ⟨ret, b, cs⟩ := o
  cases ret with
  | ok n => dsimp only; split_ifs <;> exact key
  | err e => exact key
  | fault f => exact key

theorem fine_exec (hi : ∀ i, cfg.irq.cnt i < U32 - 1) {env : Env} {st : St} {m : Msg} (hc : Core cfg dma p st)
    (hm : st.mig.isSome = mig) : Vouched cfg mig dma (exec cfg env st m).evs := by
  have hmig : ∀ n, st.mig = some n → mig = true := fun n h => by rw [← hm, h]; rfl
  refine exec_elim (P := fun d => Vouched cfg mig dma d.evs) cfg env st m ?_ ?_ ?_ ?_ ?_ ?_ ?_ ?_ ?_ ?_ ?_ ?_ ?_ ?_ ?_
  · exact fun _ _ => fine_nil
  · intro c _ hd
    refine dmaMap_elim (P := fun d => Vouched cfg mig dma d.evs) cfg env st c _ _ (fun _ _ => fine_nil) ?_
    rintro o rfl x hx
    obtain ⟨y, hy, hms, hlen⟩ := reached_len hc.tables hd
    rcases calls_ofDma hx with ⟨i, rfl, hi⟩ | ⟨i, rfl, hi⟩
    · have hreg : cfg.dma.hasReg = true ∧ i.len ≤ y.2 := by
        generalize hq : Dma.MapReq.mk (leAt m.body 4 4) (leAt m.body 8 8) (leAt m.body 16 8) (leAt m.body 24 8) m.fds = q at hi
        have hcs : ∀ o : Option Fd, Dma.Ev.register i ∉ Dma.closeEv o := by
          intro o h
          cases o with
          | none => cases h
          | some x => cases List.mem_singleton.mp h
        have hr : ∀ r : Dma.Region, r.info.len ≤ y.2 →
            Dma.Ev.register i ∈ (if cfg.dma.hasReg then [Dma.Ev.register r.info] else []) → cfg.dma.hasReg = true ∧ i.len ≤ y.2 := by
          intro r h1 h
          cases hb : cfg.dma.hasReg with
          | false => rw [hb] at h; cases h
          | true =>
            rw [hb] at h
            cases List.mem_singleton.mp h
            exact ⟨rfl, h1⟩
        have hx := Dma.handleMap_case env.os cfg.dma.hasReg c q
        revert hi hx
        generalize Dma.handleMap env.os cfg.dma.hasReg c q = o
        intro h hx
        cases hx with
        | flags => cases h
        | fail x ev _ _ hev =>
          rcases List.mem_append.mp h with h | h
          · rcases hev with rfl | ⟨x, _, rfl⟩
            · cases h
            · cases List.mem_singleton.mp h
          · exact absurd h (hcs _)
        | again idx r _ hr0 _ _ _ _ _ _ => exact hr r (hlen r (List.mem_of_getElem? hr0)) h
        | new r _ hsz _ _ hn _ =>
          rcases List.mem_append.mp h with h | h
          · split_ifs at h
            · cases h
            · cases List.mem_singleton.mp h
          · exact hr r (by rw [hn.hlen, ← hms]; exact hsz) h
      exact ⟨hreg.1, y, hy, hreg.2⟩
    · exact absurd rfl ((handleMap_mem _ _ _ _ hi).1 i)
  · intro c _ hd
    refine dmaUnmap_elim (P := fun d => Vouched cfg mig dma d.evs) cfg env st c _ _ (fun _ _ => fine_nil) ?_
    intro r l _ _
    obtain ⟨y, hy, _, hlen⟩ := reached_len hc.tables hd
    dsimp only
    have hx := Dma.handleUnmap_case env.alloc cfg.dma.hasUnreg c (leAt m.body 8 8) (leAt m.body 16 8) (unmapKind env m.body)
    revert hx
    generalize Dma.handleUnmap env.alloc cfg.dma.hasUnreg c (leAt m.body 8 8) (leAt m.body 16 8) (unmapKind env m.body) = o
    intro hx
    cases hx with
    | removed c1 l1 l2 r b _ hg _ _ _ hr _ _ _ _ =>
      have h1 : r.info.len ≤ y.2 := by
        refine Dma.forall_of_geoms (c := c1) (c1 := c) hg.symm (P := fun r => r.info.len ≤ y.2) ?_ hlen r (by rw [hr]; simp)
        intro r s hrs h
        unfold Dma.Region.geom at hrs
        simp only [Prod.mk.injEq] at hrs
        rw [← hrs.1]; exact h
      have := fine_drop (cfg := cfg) (mig := mig) (q := st.quiesced) hy (rs := [r])
        (fun s hs => by rw [List.mem_singleton.mp hs]; exact h1)
      simpa using this
    | cleared hk => exact fine_drop hy hlen
    | enoent => exact fine_nil
    | nomem => exact fine_nil
    | dirtyFail => exact fine_nil
    | assert => exact fine_nil
  · exact fun _ => fine_nil
  · exact fun _ => fine_nil
  · exact fun _ => fine_nil
  · exact fun _ => fine_nil
  · intro _ c hcl
    obtain ⟨x, hx, hcx⟩ := calls_flatMap hcl
    cases x with
    | close fd => cases hcx
    | signal fd => cases hcx
    | state i s n k =>
      have : c = .irqState i s n k := by simpa [calls, ofIrq, bracket] using hcx
      rw [this]
      exact handleSet_granted hi _ _ _ _ hx
  · exact fun _ => fine_access hsz hl hc.pci
  · exact fun _ => fine_access hsz hl hc.pci
  · exact fun _ => fine_deviceReset env st .device
  · intro _ c hcl
    have hcl : c ∈ calls ((Mig.handleFeature env.feat { mig := st.mig, dma := st.dma } m.body).2.2.flatMap (ofVfu st.quiesced)) := hcl
    obtain ⟨x, hx, hcx⟩ := calls_flatMap hcl
    have : c = .migState x := by simpa [calls, ofVfu, bracket] using hcx
    rw [this]
    cases hs : st.mig with
    | some n => exact hmig n hs
    | none =>
      exfalso
      rw [hs] at hx
      unfold Mig.handleFeature at hx
      dsimp only at hx
      split_ifs at hx <;> cases hx
  · intro _ c hcl
    obtain ⟨q, hq⟩ := mem_calls.mp hcl
    obtain ⟨x, hx, h⟩ := List.mem_map.mp hq
    cases h
    have ha : Mig.ReadAllowed st.mig st.maxXfer m.body := by
      by_contra hn
      rw [Mig.C23_read_refused _ _ _ _ _ hn] at hx
      cases hx
    rw [dataRead_mem hx]
    obtain ⟨h8, ⟨a, _, hs⟩, _⟩ := ha
    exact ⟨hmig _ hs, by omega⟩
  · intro _ c hcl
    obtain ⟨q, hq⟩ := mem_calls.mp hcl
    obtain ⟨x, hx, h⟩ := List.mem_map.mp hq
    cases h
    have ha : Mig.WriteAllowed st.mig st.maxXfer m.body := by
      by_contra hn
      rw [Mig.C23_write_refused _ _ _ _ hn] at hx
      cases hx
    rw [dataWrite_mem hx]
    exact hmig _ ha.1
  · exact fun _ => fine_nil

theorem fine_handleRequest (hi : ∀ i, cfg.irq.cnt i < U32 - 1) {env : Env} (hos : env.os.Ok) (k : Nat) {st : St} {m : Msg}
    (hc : Core cfg dma p st) (hm : st.mig.isSome = mig) : Vouched cfg mig dma (handleRequest cfg env k st m).evs := by
  have he := fine_exec (mig := mig) hsz hl hi (env := env) (m := m) hc hm
  have hr := ((core_kept cfg dma p).exec env st m hos hc).tables
  unfold handleRequest
  dsimp only
  generalize exec cfg env st m = d at he hr
  have he' : Vouched cfg mig dma (.exec m.hdr :: d.evs) := .cons rfl he
  by_cases hf : d.res.isFault = true
  · rw [if_pos hf]; exact he'
  rw [if_neg hf]
  have h1 := he'.append (fine_doReply (mig := mig) hr env k m.hdr d.out d.outFds (replyErr d.res))
  unfold finish
  dsimp only
  by_cases hf : (doReply cfg env k d.st m.hdr d.out d.outFds (replyErr d.res)).res.isFault = true
  · rw [if_pos hf]; exact h1
  · rw [if_neg hf]; exact (h1.append (fine_quiet (calls_closes _))).append (fine_quiet rfl)

theorem fine_call (hi : ∀ i, cfg.irq.cnt i < U32 - 1) {st : St} (hc : Core cfg dma p st) (hm : st.mig.isSome = mig) (op : Op)
    (ho : op.OSOk) : Vouched cfg mig dma (call cfg st op).evs := by
  have hst : Core cfg dma p { st with quiesced := true } := ⟨hc.tables, hc.mig, hc.pci⟩
  cases op with
  | run env i =>
    show Vouched cfg mig dma (poll cfg env st i).evs
    unfold poll
    by_cases h1 : st.pending ≠ .none
    · rw [if_pos h1]; exact fine_nil
    rw [if_neg h1]
    by_cases h2 : st.conn = false
    · rw [if_pos h2]; exact fine_nil
    rw [if_neg h2]
    cases i with
    | again => exact fine_nil
    | lost e leak => exact .cons rfl (fine_resetCtx hc.tables env 0)
    | failed e leak => exact fine_quiet rfl
    | bad h fds e => exact .cons rfl (fine_refuse hc.tables env 0 h fds e)
    | req h body fds =>
      refine .cons rfl ?_
      change Vouched cfg mig dma (dispatch cfg env st ⟨h, body, fds⟩).evs
      unfold dispatch
      dsimp only
      by_cases h3 : shouldExec st.mig h.cmd = false
      · rw [if_pos h3]; exact fine_refuse hc.tables env 0 _ _ _
      rw [if_neg h3]
      by_cases h4 : needsQuiesce cfg st ⟨h, body, fds⟩ = true
      · rw [if_pos h4]
        have hq : cfg.hasQuiesce = true := by
          by_contra hn
          unfold needsQuiesce at h4
          rw [if_pos (by simpa using hn)] at h4
          cases h4
        have hb : Vouched cfg mig dma (bracket .quiesce (.quiesce (env.quiesce 0)) st.quiesced) := fine_bracket hq
        cases hk : env.quiesce 0 with
        | none => rw [hk] at hb; exact hb.append (fine_handleRequest hsz hl hi (ho _ rfl) 1 hst hm)
        | some e =>
          rw [hk] at hb
          dsimp only
          by_cases he : e = EBUSY
          · rw [if_pos he]; exact hb
          · rw [if_neg he]; exact hb.append (fine_refuse hc.tables env 1 _ _ _)
      · rw [if_neg h4]; exact fine_handleRequest hsz hl hi (ho _ rfl) 0 hc hm
  | quiesced env e =>
    show Vouched cfg mig dma (deviceQuiesced cfg env st e).evs
    unfold deviceQuiesced
    by_cases h : cfg.hasQuiesce = false ∨ st.pending = .none
    · rw [if_pos h]; exact fine_nil
    rw [if_neg h]
    dsimp only
    refine .cons rfl ?_
    by_cases he : e = 0
    · rw [if_pos he]
      cases hpd : st.pending with
      | none => exact fine_nil
      | msg m =>
        have := fine_handleRequest (mig := mig) hsz hl hi (env := env) (ho _ rfl) 0 (m := m) hst hm
        simpa only [hpd] using this
      | ctxReset =>
        have := fine_reset (mig := mig) (st := { st with quiesced := true }) hc.tables env
        simpa only [hpd] using this
    · rw [if_neg he]
      cases st.pending with
      | none => exact fine_nil
      | msg m => exact (fine_quiet (calls_closes _)).append (fine_quiet rfl)
      | ctxReset => exact fine_nil
  | transfer env lost =>
    show Vouched cfg mig dma (transfer cfg env st lost).evs
    unfold transfer
    by_cases h1 : st.pending ≠ .none
    · rw [if_pos h1]; exact fine_nil
    rw [if_neg h1]
    by_cases h : lost = true ∧ st.conn = true
    · rw [if_pos h]; exact fine_resetCtx hc.tables env 0
    · rw [if_neg h]; exact fine_nil
  | attach n =>
    show Vouched cfg mig dma (attach st n).evs
    unfold attach
    by_cases h : st.conn = true
    · rw [if_pos h]; exact fine_nil
    rw [if_neg h]
    cases n <;> exact fine_nil
  | config f => exact fine_nil
  | mark sgl =>
    simp only [call]
    cases st.dma with
    | none => exact fine_nil
    | some c =>
      dsimp only
      cases Dma.sglMark c sgl <;> exact fine_nil
  | trigger wr sub => exact fine_quiet (calls_ofIrq _ (trigger_state wr st.irqs sub))

/-- C119: in every history, whatever the client sends and the callbacks answer, each callback of the device is one the device
provided, and is called within what the device was set up for. -/
theorem C119_granted (hi : ∀ i, cfg.irq.cnt i < U32 - 1) (pre : List Op) (op : Op) (ho : ∀ o ∈ pre ++ [op], o.OSOk) :
    ∀ c ∈ calls (call cfg (run cfg (init cfg mig dma p) pre).1 op).evs, Granted cfg mig dma c := by
  have h1 := (core_kept cfg dma p).run pre (core_init cfg mig dma p) fun o h => ho o (by simp [h])
  have h2 := (mig_kept cfg mig).run pre (st := init cfg mig dma p) (by cases mig <;> rfl) fun o h => ho o (by simp [h])
  exact fine_call hsz hl hi h1 h2 op (ho op (by simp))

end

/-! ## A device that relies on it -/

section
open Demo

/-- A device with callbacks for BAR 0 and for the config space, which is that of `Pci.ex8`. -/
def fullDev : Cfg := { cfg with tbl := cfg.tbl.set 7 { Region.Reg.blank with flags := 3, size := 4096, hasCb := true } }

theorem full_layout : LayoutOk fullDev.tbl Pci.ex8 where
  bounded := flr_layout.bounded
  sized := flr_layout.sized
  disj := flr_layout.disj
  region := by
    intro r hr
    have : fullDev.tbl[7]? = some { Region.Reg.blank with flags := 3, size := 4096, hasCb := true } := by decide
    rw [this] at hr
    cases hr
    decide +kernel

/-- Map a range. -/
def mapRange (addr len : Nat) : Op := .run env (req 1 2 0 (enc 4 32 ++ enc 4 3 ++ enc 8 0 ++ enc 8 addr ++ enc 8 len) [])

/-- A client comes, maps 4 KiB, writes BAR 0, masks an interrupt, and starts to migrate. -/
def busyDay : List Op :=
  [.attach (.ok ⟨8, 1048576, 4096, false⟩), mapRange 0x1000 0x1000, .run env (req 2 10 0 writeBody []),
    .run env (req 5 10 0 (cfgBody 0x84 (enc 2 0x8000)) []), .run env (req 6 10 0 (cfgBody 0xf00 (enc 2 1)) []),
    .run env (req 3 8 0 (enc 4 20 ++ enc 4 9 ++ enc 4 2 ++ enc 4 1 ++ enc 4 1) []), .run env (req 4 16 0 (stateBody 6) [])]

/-- What the device hears on that day and when the client goes away. -/
example : calls (run fullDev (init fullDev true (some (8, 2 ^ 40)) Pci.ex8) (busyDay ++ [.run env (.lost 0 [])])).2 =
    [.quiesce none, .dmaRegister ⟨0x1000, 0x1000, 0, 0, 0, 4096, ⟨true, true⟩⟩, .region 0 8 (enc 4 0xcafe) true, .quiesce none,
      .reset .flr, .region 7 0xf00 (enc 2 1) true, .irqState 2 1 1 true, .quiesce none, .migState .preCopy, .quiesce none,
      .dmaUnregister ⟨0x1000, 0x1000, 0, 0, 0, 4096, ⟨true, true⟩⟩, .reset .lostConn] := by
  decide +kernel

example : ∀ c ∈ calls (call fullDev (run fullDev (init fullDev true (some (8, 2 ^ 40)) Pci.ex8) busyDay).1 (.run env (.lost 0 []))).evs,
    Granted fullDev true (some (8, 2 ^ 40)) c := by
  refine C119_granted (by decide) full_layout irq_ok.small busyDay _ ?_
  intro o h
  simp only [busyDay, mapRange, List.cons_append, List.nil_append, List.mem_cons, List.not_mem_nil, or_false] at h
  rcases h with rfl | rfl | rfl | rfl | rfl | rfl | rfl | rfl
  · exact fun _ h => by cases h
  all_goals exact fun _ h => by cases h; exact os_ok

/-- What is not granted: the device may be told of an empty range, of one that runs past the end of the address space, and
twice of the same one. -/
theorem C119_not_granted :
    (calls (run fullDev (init fullDev true (some (8, 2 ^ 40)) Pci.ex8)
      [.attach (.ok ⟨8, 1048576, 4096, false⟩), mapRange 0x1000 0, mapRange (U64 - 0x1000) 0x2000, mapRange (U64 - 0x1000) 0x2000]).2).filterMap
        (fun c => match c with | .dmaRegister i => some (i.base, i.len) | _ => none) =
      [(0x1000, 0), (U64 - 0x1000, 0x2000), (U64 - 0x1000, 0x2000)] := by
  decide +kernel

end

end Verif.Server
