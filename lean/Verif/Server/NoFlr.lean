import Verif.Server.Identity
import Verif.Server.Flr

/-!
# C127: a device that does not offer function level resets is never asked for one -/

namespace Verif.Pci
open Verif

/-- A reset of the function comes from a write over the device control register of a PCI Express capability. -/
theorem loop_flr_at {dev : Dev} {p : Pci} (hb : Bounded p) (write : Bool) :
    ∀ (fuel : Nat) (m : Mem) (buf : List Byte) (count off done : Nat), off + count < U64 →
      Ev.flr ∈ (loop dev p write fuel m buf count off done).evs →
      write = true ∧ ∃ c ∈ p.all, c.ext = false ∧ c.id = ID_EXP ∧ off ≤ c.off + 8 ∧ c.off + 10 ≤ off + count := by
  intro fuel
  induction fuel with
  | zero => intro m buf count off done _ h; simp [loop] at h
  | succ fuel ih =>
    intro m buf count off done hlt h
    unfold loop at h
    by_cases h0 : count = 0
    · rw [if_pos h0] at h; simp at h
    rw [if_neg h0] at h
    cases hs : nextSegment p count off write with
    | none => rw [hs] at h; simp at h
    | some x =>
      obtain ⟨o, size⟩ := x
      rw [hs] at h
      dsimp only at h
      obtain ⟨_, hle, _, _, _⟩ := nextSegment_spec hb (by omega) hlt hs
      have here : Ev.flr ∈ (serve dev p o m buf size off write).evs →
          write = true ∧ ∃ c ∈ p.all, c.ext = false ∧ c.id = ID_EXP ∧ off ≤ c.off + 8 ∧ c.off + 10 ≤ off + count := by
        intro hf
        obtain ⟨g1, g2, g3, c, g4, g5, g6, g7⟩ := serve_flr hf
        exact ⟨g2, c, (capFind_some g4).1, g5, g6, by omega, by omega⟩
      cases hr : (serve dev p o m buf size off write).ret with
      | err e => rw [hr] at h; exact here h
      | fault f => rw [hr] at h; exact here h
      | ok n =>
        rw [hr] at h
        dsimp only at h
        by_cases h1 : n = 0
        · rw [if_pos h1] at h; exact here h
        rw [if_neg h1] at h
        by_cases h2 : n > size
        · rw [if_pos h2] at h; exact here h
        rw [if_neg h2] at h
        rcases List.mem_append.mp h with h | h
        · exact here h
        · obtain ⟨g1, c, g2, g3, g4, g5, g6⟩ := ih _ _ _ _ _ (by omega) h
          exact ⟨g1, c, g2, g3, g4, by omega, by omega⟩

theorem capWrite_devcap {dev : Dev} {alloc : Nat} {m : Mem} {c : Cap} {buf : List Byte} {count off : Nat} (he : c.ext = false)
    (hid : c.id = ID_EXP) (hlt : off < c.off + 8) (hge : c.off ≤ off) : (capWrite dev alloc m c buf count off).1 = m := by
  unfold capWrite
  split
  · rfl
  rw [if_neg (by rw [he]; simp), if_neg (by rw [hid]; decide)]
  unfold writePx
  split
  · rfl
  rw [if_neg (by omega)]
  split
  · rfl
  rw [if_neg (by omega), if_neg (by omega)]

end Verif.Pci

namespace Verif.Server
open Verif
open Verif.Dma (Fd)

/-- The device capabilities register of a PCI Express capability, where a device says whether it can be reset. -/
def DevCap (p : Pci.Pci) (a : Nat) : Prop := ∃ c ∈ p.all, c.ext = false ∧ c.id = Pci.ID_EXP ∧ c.off + 4 ≤ a ∧ a < c.off + 8

/-- Bit 28 of that register, in every PCI Express capability, says that the function cannot be reset. -/
def NoFlr (p : Pci.Pci) : Prop := ∀ c ∈ p.all, c.ext = false → c.id = Pci.ID_EXP → (p.mem (c.off + 7)).getLsbD 4 = false

theorem exp_shape {p : Pci.Pci} (h : Pci.Inv p) {c : Pci.Cap} (hc : c ∈ p.all) (he : c.ext = false) (hid : c.id = Pci.ID_EXP) :
    c.size = 0x3c ∧ c.hdr = 2 ∧ 64 ≤ c.off := by
  rcases List.mem_append.mp hc with hx | hx
  · have hs := h.std c hx
    refine ⟨?_, ?_, hs.lo⟩
    · have := hs.size
      rw [hid] at this
      unfold Pci.stdSize at this
      rw [if_neg (by decide), if_pos rfl] at this
      exact (Option.some.inj this).symm
    · rw [hs.hdr, hid]; rfl
  · rw [(h.ext c hx).ext] at he; cases he

theorem disj_layout {p q : Pci.Pci} (h : Pci.Inv p) (hq : layout q = layout p) : Pci.Disj q := by
  have := Pci.disj_of_inv h
  unfold Pci.Disj at this ⊢
  rwa [all_layout hq]

/-- An access of an orderly client leaves the device capabilities alone. -/
theorem devcap_access {dev : Pci.Dev} (hl : Pci.Local dev) (hh : Pci.Honest dev) (hcb : dev.cb = none) {p : Pci.Pci}
    (h : Pci.Inv p) (hk : ∀ c ∈ p.all, c.cbk = false) {q : Pci.Pci} (hq : layout q = layout p) {buf : List Byte} {count off : Nat}
    {w : Bool} (hw : w = true → Contained p off count) (hlen : buf.length = count) (hc : 0 < count) (hsz : off + count ≤ q.size)
    {a : Nat} (ha : DevCap p a) : (Pci.access dev q buf count off w).mem a = q.mem a := by
  have hb := bounded_layout hq h.bnd
  have hsm := hb.small
  have hlt : off + count < U64 := by simp only [U64]; omega
  cases w with
  | false => rw [(Pci.C38_read hcb hb buf hsz).2.2.1]
  | true =>
    have hall := all_layout hq
    have hdj := disj_layout h hq
    have fr := fun h => Pci.C45_frame (buf := buf) (count := count) (off := off) (write := true) (a := a) hl hh hb (fun _ => hlen) hlt h
    obtain ⟨d, hdm, he, hid, a1, a2⟩ := ha
    obtain ⟨s1, s2, s3⟩ := exp_shape h hdm he hid
    rcases hw rfl with h1 | ⟨c, hcm, hi⟩ | ⟨h1, h2⟩
    · exact fr (by omega)
    · by_cases hcd : d = c
      · subst hcd
        by_cases hin : a < off ∨ off + count ≤ a
        · exact fr hin
        · rcases Pci.write_inside hh hb hdj (hall ▸ hdm) (hk d hdm) hc hlen hi (.inl hcb) with ⟨g, _⟩ | ⟨_, _, g, _⟩
          · rw [g]
          · rw [g, Pci.capWrite_devcap he hid (by omega) hi.1]
      · obtain ⟨hi1, hi2⟩ := hi
        rcases h.apart hdm hcm with h4 | h4
        · exact absurd h4 hcd
        · unfold Pci.Apart at h4
          exact fr (by omega)
    · rw [clear_write hh hcb hb hc hlen hlt h1 (hall ▸ h2)]

/-- An access of an orderly client resets no function that does not offer it. -/
theorem noflr_access {dev : Pci.Dev} (hh : Pci.Honest dev) (hcb : dev.cb = none) {p : Pci.Pci}
    (h : Pci.Inv p) (hk : ∀ c ∈ p.all, c.cbk = false) {q : Pci.Pci} (hq : layout q = layout p) (hn : NoFlr q) {buf : List Byte}
    {count off : Nat} {w : Bool} (hw : w = true → Contained p off count) (hlen : buf.length = count) (hc : 0 < count)
    (hsz : off + count ≤ q.size) : Pci.Ev.flr ∉ (Pci.access dev q buf count off w).evs := by
  intro hf
  have hb := bounded_layout hq h.bnd
  have hsm := hb.small
  have hlt : off + count < U64 := by simp only [U64]; omega
  have hall := all_layout hq
  have hdj := disj_layout h hq
  obtain ⟨rfl, d, hdm, he, hid, d1, d2⟩ := Pci.loop_flr_at hb w _ _ _ _ _ _ hlt hf
  rw [hall] at hdm
  obtain ⟨s1, s2, s3⟩ := exp_shape h hdm he hid
  rcases hw rfl with h1 | ⟨c, hcm, hi⟩ | ⟨h1, h2⟩
  · omega
  · rcases Pci.write_inside hh hb hdj (hall ▸ hcm) (hk c hcm) hc hlen hi (.inl hcb) with ⟨_, g, _⟩ | ⟨hro, _, _, _, g⟩
    · rw [g] at hf; cases hf
    · rw [g] at hf
      obtain ⟨c1, c2, rfl, c4⟩ := Pci.capWrite_flr hf
      obtain ⟨t1, t2, t3⟩ := exp_shape h hcm c1 c2
      have ho : off = c.off + 8 := by have := hi.1; omega
      subst ho
      have hx := (Pci.C66_flr hh hb hdj (hall ▸ hcm) (hk c hcm) c1 c2 t1 hro t2 hlen)
      rw [← g] at hf
      rcases hx.2.1 with e | e
      · rw [e] at hf; cases hf
      · have := (hx.1.mp e).2.1
        rw [hn c (hall ▸ hcm) c1 c2] at this
        cases this
  · have := h2 d hdm
    omega

/-- No function level reset. -/
def Flrless (evs : List Ev) : Prop := ∀ e ∈ evs, ∀ q, e ≠ .call (.reset .flr) q

theorem Flrless.append {a b : List Ev} (ha : Flrless a) (hb : Flrless b) : Flrless (a ++ b) := by
  intro e he
  rcases List.mem_append.mp he with h | h
  · exact ha e h
  · exact hb e h

theorem Flrless.cons {e : Ev} {b : List Ev} (ha : ∀ q, e ≠ .call (.reset .flr) q) (hb : Flrless b) : Flrless (e :: b) := by
  intro x hx
  rcases List.mem_cons.mp hx with h | h
  · rw [h]; exact ha
  · exact hb x h

theorem flrless_nil : Flrless [] := fun _ h => by cases h

theorem flrless_bracket {t : CbType} {c : Call} {q : Bool} (h : c ≠ .reset .flr) : Flrless (bracket t c q) := by
  intro e he
  simp only [bracket, List.mem_cons, List.not_mem_nil, or_false] at he
  rcases he with rfl | rfl | rfl
  · simp
  · intro x hx; injection hx with h1; exact h h1
  · simp

theorem flrless_flatMap {α : Type} {f : α → List Ev} {l : List α} (h : ∀ x ∈ l, Flrless (f x)) : Flrless (l.flatMap f) := by
  intro e he
  obtain ⟨x, hx, hxe⟩ := List.mem_flatMap.mp he
  exact h x hx e hxe

theorem flrless_ofDma (q : Bool) (l : List Dma.Ev) : Flrless (l.flatMap (ofDma q)) := by
  refine flrless_flatMap fun x _ => ?_
  cases x with
  | register i => exact flrless_bracket (by simp)
  | unregister i => exact flrless_bracket (by simp)
  | mmap b l => exact .cons (by simp) flrless_nil
  | munmap b l => exact .cons (by simp) flrless_nil
  | close fd => exact .cons (by simp) flrless_nil

theorem flrless_ofIrq (q : Bool) (l : List Irq.Ev) : Flrless (l.flatMap (ofIrq q)) := by
  refine flrless_flatMap fun x _ => ?_
  cases x <;> exact .cons (by simp) flrless_nil

theorem flrless_closes (l : List (Option Fd)) : Flrless (closes l) := by
  intro e he
  obtain ⟨x, _, rfl⟩ := List.mem_map.mp he
  simp

theorem flrless_sent (l : List Wire.Sent) : Flrless (l.map Ev.sent) := by
  intro e he
  obtain ⟨x, _, rfl⟩ := List.mem_map.mp he
  simp

theorem flrless_deviceReset (cfg : Cfg) (env : Env) (st : St) {r : Reason} (h : r ≠ .flr) :
    Flrless (deviceReset cfg env st r).2.2 := by
  rw [evs_deviceReset]
  by_cases hr : cfg.hasReset = true
  · rw [if_pos hr]; exact flrless_bracket (by simpa using h)
  · rw [if_neg hr]; exact flrless_nil

theorem flrless_ofPci {q : Bool} {l : List Pci.Ev} (h : Pci.Ev.flr ∉ l) : Flrless (l.flatMap (ofPci q)) := by
  refine flrless_flatMap fun x hx => ?_
  cases x with
  | cb off buf w => exact .cons (by simp) flrless_nil
  | flr => exact absurd hx h

section
variable {cfg : Cfg}

theorem flrless_resetQuiesced (env : Env) (st : St) : Flrless (resetQuiesced cfg env st).evs := by
  unfold resetQuiesced
  cases dropDma cfg st.dma with
  | err e => exact flrless_nil
  | fault f => exact flrless_nil
  | ok x =>
    obtain ⟨dma, ev1⟩ := x
    dsimp only
    have h2 := flrless_deviceReset cfg env { st with dma } (r := .lostConn) (by simp)
    cases Irq.reset cfg.irq (deviceReset cfg env { st with dma } .lostConn).1.irqs with
    | err e => exact (flrless_ofDma _ _).append h2
    | fault f => exact (flrless_ofDma _ _).append h2
    | ok y => exact (((flrless_ofDma _ _).append h2).append (flrless_ofIrq _ _)).append (.cons (by simp) flrless_nil)

theorem flrless_resetCtx (env : Env) (k : Nat) (st : St) : Flrless (resetCtx cfg env k st).evs := by
  unfold resetCtx
  by_cases hc : cfg.hasQuiesce = true ∧ st.pending = .none
  · rw [if_pos hc]
    dsimp only
    have hb : Flrless (bracket .quiesce (.quiesce (env.quiesce k)) st.quiesced) := flrless_bracket (by simp)
    cases hk : env.quiesce k with
    | none =>
      rw [hk] at hb
      exact hb.append (flrless_resetQuiesced env st)
    | some e =>
      rw [hk] at hb
      dsimp only
      by_cases he : e = EBUSY
      · rw [if_pos he]; exact hb
      · rw [if_neg he]; exact hb
  · rw [if_neg hc]; exact flrless_resetQuiesced env st

theorem flrless_doReply (env : Env) (k : Nat) (st : St) (hd : Wire.Hdr) (b : Wire.Body) (fds : List (Option Fd)) (err : Nat) :
    Flrless (doReply cfg env k st hd b fds err).evs := by
  unfold doReply
  by_cases hn : hd.noReply = true
  · rw [if_pos hn]; exact flrless_nil
  rw [if_neg hn]
  dsimp only
  cases (Wire.reply env.snd hd b fds (err % U32)).1 with
  | ok u => exact flrless_sent _
  | error e =>
    dsimp only
    by_cases he : e = ECONNRESET ∨ e = ENOMSG
    · rw [if_pos he]; exact (flrless_sent _).append (flrless_resetCtx env k st)
    · rw [if_neg he]; exact flrless_sent _

theorem flrless_refuse (env : Env) (k : Nat) (st : St) (hd : Wire.Hdr) (fds : List Fd) (err : Nat) :
    Flrless (refuse cfg env k st hd fds err).evs := by
  have h := flrless_doReply (cfg := cfg) env k st hd (.bytes []) [] err
  unfold refuse
  dsimp only
  by_cases hf : (doReply cfg env k st hd (.bytes []) [] err).res.isFault = true
  · rw [if_pos hf]; exact h
  · rw [if_neg hf]; exact (h.append (flrless_closes _)).append (.cons (by simp) flrless_nil)


end

section
variable {cfg : Cfg} {p : Pci.Pci} (hsz : ∀ r ∈ cfg.tbl, r.size < U32)
  (hr : ∀ r, cfg.tbl[7]? = some r → r.size ≤ p.size ∧ r.hasCb = false) (hi : Pci.Inv p) (hk : ∀ c ∈ p.all, c.cbk = false)

include hr in
theorem noCallback (env : Env) : (pciDev cfg env).cb = none := by
  unfold pciDev
  dsimp only
  rw [if_neg]
  cases h8 : cfg.tbl[Region.CFG_IDX]? with
  | none => simp
  | some r => simp [(hr r h8).2]

include hsz hr hi hk

theorem flrless_access {env : Env} {st : St} {w : Bool} {body : List Byte} {fds : List Fd}
    (he : Steady cfg env) (hp : layout st.pci = layout p) (hn : NoFlr st.pci)
    (h : w = true → leAt body 8 4 = 7 → Contained p (leAt body 0 8) (leAt body 12 4)) :
    Flrless (access cfg env st w body fds).evs := by
  unfold access
  dsimp only [Done.pure]
  generalize hg : handlers cfg env st.pci = hd
  unfold Region.handleAccess
  by_cases h0 : body = []
  · rw [if_pos h0]; exact flrless_nil
  rw [if_neg h0]
  by_cases hv : Region.validAccess cfg.tbl (stopCopy st.mig) w body = false
  · rw [if_pos hv]; exact flrless_nil
  rw [if_neg hv]
  obtain ⟨r, ho⟩ := (Region.validAccess_iff hsz _ _ _).1 (by simpa using hv)
  dsimp only
  by_cases h1 : leAt body 12 4 = 0
  · rw [if_pos h1]; exact flrless_nil
  rw [if_neg h1]
  by_cases h2 : env.alloc = false
  · rw [if_pos h2]; exact flrless_nil
  rw [if_neg h2, ho.region]
  dsimp only
  have key : Flrless (afterCalls cfg env st.quiesced st.pci (Region.regionAccess hd r (leAt body 8 4)
      (if w = true then body.drop 16 else List.replicate (leAt body 12 4) 0#8) (leAt body 0 8) w).2.2).2 := by
    unfold Region.regionAccess
    by_cases hcf : leAt body 8 4 = Region.CFG_IDX ∧ r.flags &&& Region.FLAG_ALWAYS_CB = 0
    · rw [if_pos hcf]
      have h7 : leAt body 8 4 = 7 := hcf.1
      have hlen : (if w = true then body.drop 16 else List.replicate (leAt body 12 4) 0#8).length = leAt body 12 4 := by
        cases w with
        | true =>
          have := ho.payload rfl
          simp only [if_true, List.length_drop]; omega
        | false => simp
      dsimp only [afterCalls]
      rw [List.append_nil, hlen]
      apply flrless_ofPci
      have hs : leAt body 0 8 + leAt body 12 4 ≤ st.pci.size := by
        have h2 := (hr r (by rw [← h7]; exact ho.region)).1
        have h4 : st.pci.size = p.size := by rw [layout_parts hp]
        have h3 := ho.bound
        omega
      exact noflr_access he.honest (noCallback hr env) hi hk hp hn (fun hw => h hw h7) hlen (by omega) hs
    · rw [if_neg hcf]
      by_cases hcb : r.hasCb = false
      · rw [if_pos hcb]; exact flrless_nil
      · rw [if_neg hcb]; exact .cons (by simp) flrless_nil
  generalize Region.regionAccess hd r (leAt body 8 4)
      (if w = true then body.drop 16 else List.replicate (leAt body 12 4) 0#8) (leAt body 0 8) w = o at key
  obtain ⟨ret, b, cs⟩ := o
  cases ret with
  | ok n => dsimp only; split_ifs <;> exact key
  | err e => exact key
  | fault f => exact key

theorem flrless_exec {env : Env} {st : St} {m : Msg} (he : Steady cfg env) (hp : layout st.pci = layout p) (hn : NoFlr st.pci)
    (h : Orderly p (.req m.hdr m.body m.fds)) : Flrless (exec cfg env st m).evs := by
  refine exec_elim (P := fun d => Flrless d.evs) cfg env st m ?_ ?_ ?_ ?_ ?_ ?_ ?_ ?_ ?_ ?_ ?_ ?_ ?_ ?_ ?_
  · exact fun _ _ => flrless_nil
  · exact fun c _ _ => dmaMap_elim (P := fun d => Flrless d.evs) cfg env st c _ _ (fun _ _ => flrless_nil)
      (fun _ _ => flrless_ofDma _ _)
  · exact fun c _ _ => dmaUnmap_elim (P := fun d => Flrless d.evs) cfg env st c _ _ (fun _ _ => flrless_nil)
      (fun _ _ _ _ => flrless_ofDma _ _)
  · exact fun _ => flrless_nil
  · exact fun _ => flrless_nil
  · exact fun _ => flrless_nil
  · exact fun _ => flrless_nil
  · exact fun _ => flrless_ofIrq _ _
  · exact fun _ => flrless_access hsz hr hi hk he hp hn (fun h => by cases h)
  · exact fun hc => flrless_access hsz hr hi hk he hp hn (fun _ => h hc)
  · exact fun _ => flrless_deviceReset cfg env st (by simp)
  · exact fun _ => flrless_flatMap fun _ _ => flrless_bracket (by simp)
  · intro _ e he
    obtain ⟨x, _, rfl⟩ := List.mem_map.mp he
    simp
  · intro _ e he
    obtain ⟨x, _, rfl⟩ := List.mem_map.mp he
    simp
  · exact fun _ => flrless_nil

theorem flrless_handleRequest {env : Env} (k : Nat) {st : St} {m : Msg} (hE : Steady cfg env) (hp : layout st.pci = layout p) (hn : NoFlr st.pci)
    (h : Orderly p (.req m.hdr m.body m.fds)) : Flrless (handleRequest cfg env k st m).evs := by
  have he := flrless_exec hsz hr hi hk hE hp hn h
  unfold handleRequest
  dsimp only
  generalize exec cfg env st m = d at he
  have he' : Flrless (.exec m.hdr :: d.evs) := .cons (by simp) he
  by_cases hf : d.res.isFault = true
  · rw [if_pos hf]; exact he'
  rw [if_neg hf]
  have h1 := he'.append (flrless_doReply (cfg := cfg) env k d.st m.hdr d.out d.outFds (replyErr d.res))
  unfold finish
  dsimp only
  by_cases hf : (doReply cfg env k d.st m.hdr d.out d.outFds (replyErr d.res)).res.isFault = true
  · rw [if_pos hf]; exact h1
  · rw [if_neg hf]; exact (h1.append (flrless_closes _)).append (.cons (by simp) flrless_nil)

theorem flrless_call {st : St} (hp : layout st.pci = layout p) (hn : NoFlr st.pci) (hkg : KeptGood (Orderly p) st) (op : Op)
    (hE : ∀ env, op.env? = some env → Steady cfg env) (ha : op.Good (Orderly p)) : Flrless (call cfg st op).evs := by
  cases op with
  | run env i =>
    show Flrless (poll cfg env st i).evs
    unfold poll
    by_cases h1 : st.pending ≠ .none
    · rw [if_pos h1]; exact flrless_nil
    rw [if_neg h1]
    by_cases h2 : st.conn = false
    · rw [if_pos h2]; exact flrless_nil
    rw [if_neg h2]
    cases i with
    | again => exact flrless_nil
    | lost e leak => exact .cons (by simp) (flrless_resetCtx env 0 st)
    | failed e leak => exact .cons (by simp) flrless_nil
    | bad h fds e => exact .cons (by simp) (flrless_refuse env 0 st h fds e)
    | req h body fds =>
      refine .cons (by simp) ?_
      change Flrless (dispatch cfg env st ⟨h, body, fds⟩).evs
      unfold dispatch
      dsimp only
      by_cases h3 : shouldExec st.mig h.cmd = false
      · rw [if_pos h3]; exact flrless_refuse env 0 st _ _ _
      rw [if_neg h3]
      have hb : Flrless (bracket .quiesce (.quiesce (env.quiesce 0)) st.quiesced) := flrless_bracket (by simp)
      by_cases h4 : needsQuiesce cfg st ⟨h, body, fds⟩ = true
      · rw [if_pos h4]
        cases hz : env.quiesce 0 with
        | none =>
          rw [hz] at hb
          exact hb.append (flrless_handleRequest hsz hr hi hk 1 (st := { st with quiesced := true }) (hE env rfl) hp hn ha)
        | some e =>
          rw [hz] at hb
          dsimp only
          by_cases he : e = EBUSY
          · rw [if_pos he]; exact hb
          · rw [if_neg he]; exact hb.append (flrless_refuse env 1 st _ _ _)
      · rw [if_neg h4]
        exact flrless_handleRequest hsz hr hi hk 0 (hE env rfl) hp hn ha
  | quiesced env e =>
    show Flrless (deviceQuiesced cfg env st e).evs
    unfold deviceQuiesced
    by_cases h : cfg.hasQuiesce = false ∨ st.pending = .none
    · rw [if_pos h]; exact flrless_nil
    rw [if_neg h]
    dsimp only
    refine .cons (by simp) ?_
    by_cases he : e = 0
    · rw [if_pos he]
      cases hpd : st.pending with
      | none => exact flrless_nil
      | msg m =>
        have := flrless_handleRequest hsz hr hi hk (env := env) 0 (m := m) (st := { st with quiesced := true }) (hE env rfl) hp hn (hkg m hpd)
        simpa only [hpd] using this
      | ctxReset =>
        have := flrless_resetQuiesced (cfg := cfg) env { st with quiesced := true }
        simpa only [hpd] using this
    · rw [if_neg he]
      cases st.pending with
      | none => exact flrless_nil
      | msg m => exact (flrless_closes _).append (.cons (by simp) flrless_nil)
      | ctxReset => exact flrless_nil
  | transfer env lost =>
    show Flrless (transfer cfg env st lost).evs
    unfold transfer
    by_cases h1 : st.pending ≠ .none
    · rw [if_pos h1]; exact flrless_nil
    rw [if_neg h1]
    by_cases h : lost = true ∧ st.conn = true
    · rw [if_pos h]; exact flrless_resetCtx env 0 st
    · rw [if_neg h]; exact flrless_nil
  | attach n =>
    show Flrless (attach st n).evs
    unfold attach
    by_cases h : st.conn = true
    · rw [if_pos h]; exact flrless_nil
    rw [if_neg h]
    cases n <;> exact flrless_nil
  | config f => exact flrless_nil
  | mark sgl =>
    simp only [call]
    cases st.dma with
    | none => exact flrless_nil
    | some c => dsimp only; cases Dma.sglMark c sgl <;> exact flrless_nil
  | trigger wr sub => exact flrless_ofIrq _ _

end

/-- What stays over an orderly conversation, with the device capabilities registers. -/
theorem devcap_minds {cfg : Cfg} (hs : ∀ r ∈ cfg.tbl, r.size < U32) {p : Pci.Pci} (hi : Pci.Inv p) (hk : ∀ c ∈ p.all, c.cbk = false)
    (hr : ∀ r, cfg.tbl[7]? = some r → r.size ≤ p.size ∧ r.hasCb = false) :
    Minds cfg (Steady cfg) (fun f => ∀ m a, DevCap p a → f m a = m a) (Orderly p)
      (fun s => layout s.pci = layout p ∧ ∀ a, DevCap p a → s.pci.mem a = p.mem a) := by
  refine bytes_mind hs (fun r h => (hr r h).1) ?_
  intro env q m he hq hg w hw h7 buf hlen h0 hsz a ha
  exact devcap_access he.here he.honest (noCallback hr env) hi hk hq (fun h => hg (hw h) h7) hlen (by omega) hsz ha

theorem noflr_kept {p q : Pci.Pci} (hn : NoFlr p) (hl : layout q = layout p) (hm : ∀ a, DevCap p a → q.mem a = p.mem a) : NoFlr q := by
  intro c hc he hid
  rw [all_layout hl] at hc
  rw [hm _ ⟨c, hc, he, hid, by omega, by omega⟩]
  exact hn c hc he hid

theorem flrless_run {cfg : Cfg} (hs : ∀ r ∈ cfg.tbl, r.size < U32) {p : Pci.Pci} (hi : Pci.Inv p) (hk : ∀ c ∈ p.all, c.cbk = false)
    (hr : ∀ r, cfg.tbl[7]? = some r → r.size ≤ p.size ∧ r.hasCb = false) (hn : NoFlr p) (ops : List Op) :
    ∀ {st : St}, (layout st.pci = layout p ∧ ∀ a, DevCap p a → st.pci.mem a = p.mem a) → KeptGood (Orderly p) st →
      (∀ op ∈ ops, op.By (Steady cfg) (fun f => ∀ m a, DevCap p a → f m a = m a) (Orderly p)) → Flrless (run cfg st ops).2 := by
  have triv : Closed cfg (fun _ => True) (Orderly p) := by constructor <;> intros <;> trivial
  induction ops with
  | nil => intro st _ _ _; exact flrless_nil
  | cons op ops ih =>
    intro st h hp ho
    have hop := ho op (.head _)
    have h1 := flrless_call hs hr hi hk h.1 (noflr_kept hn h.1 h.2) hp op hop.1 hop.2.2
    have h2 := (devcap_minds hs hi hk hr).call h hp hop
    simp only [run]
    by_cases hf : (call cfg st op).res.isFault = true
    · rw [if_pos hf]; exact h1
    · rw [if_neg hf]
      exact h1.append (.cons (by simp) (ih h2 (triv.call st hp op hop.2.2).2 fun o h => ho o (.tail _ h)))

/-- **C127**: a device that says in its PCI Express capabilities that its function cannot be reset is never asked to reset it, and
that register keeps its value, whatever orderly clients write. -/
theorem C127_never {cfg : Cfg} (hs : ∀ r ∈ cfg.tbl, r.size < U32) {st : St} (hp : Pci.Reach false st.pci)
    (hr : ∀ r, cfg.tbl[7]? = some r → r.size ≤ st.pci.size ∧ r.hasCb = false) (hn : NoFlr st.pci) {ops : List Op}
    (hg : ∀ op ∈ ops, op.Good (Orderly st.pci)) (hkg : KeptGood (Orderly st.pci) st)
    (hd : ∀ op ∈ ops, ∀ env, op.env? = some env → Steady cfg env)
    (hf : ∀ op ∈ ops, ∀ f, op = .config f → ∀ m a, DevCap st.pci a → f m a = m a) :
    (∀ q, Ev.call (.reset .flr) q ∉ (run cfg st ops).2) ∧
      ∀ a, DevCap st.pci a → (run cfg st ops).1.pci.mem a = st.pci.mem a := by
  have hby : ∀ op ∈ ops, op.By (Steady cfg) (fun f => ∀ m a, DevCap st.pci a → f m a = m a) (Orderly st.pci) :=
    fun op ho => ⟨hd op ho, hf op ho, hg op ho⟩
  refine ⟨fun q hq => ?_, ?_⟩
  · exact flrless_run hs hp.inv (reach_noCb hp rfl) hr hn ops ⟨rfl, fun _ _ => rfl⟩ hkg hby _ hq q rfl
  · exact ((devcap_minds hs hp.inv (reach_noCb hp rfl) hr).run ops ⟨rfl, fun _ _ => rfl⟩ hkg hby).2

/-! ## Examples -/

section
open Demo

/-- A vendor capability of 16 bytes at 0x40 and a PCI Express capability behind it that offers no function level reset. -/
def sober : Pci.Pci :=
  (Pci.addCap false (Pci.addCap false (Pci.init false Pci.exBar) 0 Pci.std (Pci.pad [9, 0, 16] 16)).1 0 Pci.std
    (Pci.pad [0x10, 0, 2, 0, 0, 0, 0, 0] 0x3c)).1

theorem sober_reach : Pci.Reach false sober :=
  ((Pci.Reach.init false Pci.exBar).addStd 0 Pci.std _ 0x40 16 rfl (by decide +kernel) rfl (by decide +kernel)
    (by decide +kernel)).addStd 0 Pci.std _ 0x50 0x3c rfl (by decide +kernel) rfl (by decide +kernel) (by decide +kernel)

theorem sober_noflr : NoFlr sober := by unfold NoFlr; decide +kernel

def withSober : St := init dev true (some (8, 2 ^ 40)) sober

/-- The client asks for a reset, tries to write the device capabilities, fills the vendor capability, and asks again; then it leaves
and the next one asks. -/
def pleas : List Op := [hello, poke 0x58 [0, 0x80], poke 0x56 [0, 0x10], poke 0x44 [1, 2, 3, 4, 5, 6, 7, 8, 9, 10, 11, 12],
  poke 0x58 [0, 0x80], .run env (.lost ENOTCONN []), hello, poke 0x58 [1, 0x80]]

theorem pleas_orderly : ∀ op ∈ pleas, op.Good (Orderly sober) := by
  have hv : (⟨false, 9, 0x40, 3, 16, false, false⟩ : Pci.Cap) ∈ sober.all := by decide +kernel
  have he : (⟨false, 16, 0x50, 2, 0x3c, false, false⟩ : Pci.Cap) ∈ sober.all := by decide +kernel
  intro op ho
  simp only [pleas, List.mem_cons, List.not_mem_nil, or_false] at ho
  rcases ho with rfl | rfl | rfl | rfl | rfl | rfl | rfl | rfl
  · trivial
  · exact fun _ _ => .inr (.inl ⟨_, he, by unfold Pci.Inside; decide +kernel⟩)
  · exact fun _ _ => .inr (.inl ⟨_, he, by unfold Pci.Inside; decide +kernel⟩)
  · exact fun _ _ => .inr (.inl ⟨_, hv, by unfold Pci.Inside; decide +kernel⟩)
  · exact fun _ _ => .inr (.inl ⟨_, he, by unfold Pci.Inside; decide +kernel⟩)
  · trivial
  · trivial
  · exact fun _ _ => .inr (.inl ⟨_, he, by unfold Pci.Inside; decide +kernel⟩)

theorem pleas_env : ∀ op ∈ pleas, ∀ e, op.env? = some e → Steady dev e := by
  intro op ho e he
  have : e = env := by
    simp only [pleas, List.mem_cons, List.not_mem_nil, or_false] at ho
    rcases ho with rfl | rfl | rfl | rfl | rfl | rfl | rfl | rfl <;> first | (cases he; done) | (injection he with he; exact he.symm)
  rw [this]
  exact env_steady

example : (∀ q, Ev.call (.reset .flr) q ∉ (run dev withSober pleas).2) ∧ (run dev withSober pleas).1.pci.mem 0x57 = 0#8 ∧
    (run dev withSober pleas).1.pci.mem 0x58 = 1#8 ∧ resets (run dev withSober pleas).2 = [.lostConn] := by
  have h := C127_never dev_table.2 (st := withSober) sober_reach (by decide +kernel) sober_noflr pleas_orderly (fun _ h => by cases h)
    pleas_env (by
      intro op ho f h
      simp only [pleas, List.mem_cons, List.not_mem_nil, or_false] at ho
      rcases ho with rfl | rfl | rfl | rfl | rfl | rfl | rfl | rfl <;> cases h)
  exact ⟨h.1, by decide +kernel, by decide +kernel, by decide +kernel⟩

/-- Without the discipline: one write that runs out of the vendor capability makes the device offer function level resets, and the
next client is granted one. -/
theorem C127_violated :
    let ops := [hello, poke 0x4c [1, 2, 3, 4, 0x10, 0, 2, 0, 0, 0, 0, 0x10], .run env (.lost ENOTCONN []), hello, poke 0x58 [0, 0x80]]
    NoFlr sober ∧ dev.hasReset = true ∧ resets (run dev withSober ops).2 = [.lostConn, .flr] :=
  ⟨sober_noflr, by decide +kernel, by decide +kernel⟩

end

end Verif.Server
