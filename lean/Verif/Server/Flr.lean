import Verif.Server.Access
import Verif.Server.Migrate
import Verif.Pci.Props

/-!
# C77: a function level reset finds the device quiesced

The library quiesces the device if a write starts at the device control register of the PCI Express capability
(`lib/libvfio-user.c:1533-1543`).  The reset itself happens when a segment of a write is exactly that register, so a longer
write that ends there resets a device that is not quiesced. -/

namespace Verif.Pci
open Verif

/-- The PCI Express capabilities are one, and it is the one whose offset the library remembers. -/
def OneExp (p : Pci) : Prop :=
  ∀ c ∈ p.all, c.ext = false → c.id = ID_EXP → p.expOff = some c.off ∧ c.size = 0x3c

/-- The write starts before the device control register and ends right behind it. -/
def RunsInto (p : Pci) (off count : Nat) : Prop := ∃ o, p.expOff = some o ∧ off < o + 8 ∧ off + count = o + 10

theorem capWrite_flr {dev : Dev} {alloc : Nat} {m : Mem} {c : Cap} {buf : List Byte} {count off : Nat}
    (h : Ev.flr ∈ (capWrite dev alloc m c buf count off).2.2) :
    c.ext = false ∧ c.id = ID_EXP ∧ count = 2 ∧ off - c.off = 8 := by
  unfold capWrite at h
  by_cases h1 : c.off + c.size > alloc
  · rw [if_pos h1] at h; simp at h
  rw [if_neg h1] at h
  by_cases h2 : c.ext = true
  · rw [if_pos h2] at h
    by_cases h3 : c.id = EXT_DSN
    · rw [if_pos h3] at h; simp at h
    rw [if_neg h3] at h
    by_cases h4 : off + count > alloc
    · rw [if_pos h4] at h; simp at h
    · rw [if_neg h4] at h; simp at h
  rw [if_neg h2] at h
  by_cases h3 : c.id = ID_PM
  · rw [if_pos h3] at h; simp at h
  rw [if_neg h3] at h
  by_cases h4 : c.id = ID_EXP
  · rw [if_pos h4] at h
    refine ⟨by simpa using h2, h4, ?_⟩
    unfold writePx at h
    by_cases h5 : count ≠ 2
    · rw [if_pos h5] at h; simp at h
    rw [if_neg h5] at h
    by_cases h6 : off - c.off = 8
    · exact ⟨by omega, h6⟩
    rw [if_neg h6] at h
    exfalso
    split_ifs at h <;> simp at h
  rw [if_neg h4] at h
  exfalso
  split_ifs at h <;> simp at h

theorem serve_flr {dev : Dev} {p : Pci} {o : Owner} {m : Mem} {buf : List Byte} {count off : Nat} {write : Bool}
    (h : Ev.flr ∈ (serve dev p o m buf count off write).evs) :
    o = .cap ∧ write = true ∧ count = 2 ∧
      ∃ c, capFind p off count = some c ∧ c.ext = false ∧ c.id = ID_EXP ∧ off = c.off + 8 := by
  have hro : ∀ n, Ev.flr ∉ (readOut p m n off).evs := by
    intro n
    unfold readOut
    split_ifs <;> simp
  have hns : Ev.flr ∉ (nonstd dev p m buf count off write).evs := by
    unfold nonstd
    cases dev.cb with
    | some cb => simp
    | none =>
      dsimp only
      split_ifs
      · simp
      · exact hro _
  unfold serve at h
  cases o with
  | hdr =>
    exfalso
    dsimp only at h
    unfold hdrAccess at h
    by_cases h1 : count > 64
    · rw [if_pos h1] at h; simp at h
    rw [if_neg h1] at h
    cases write with
    | true =>
      rw [if_pos rfl] at h
      cases hw : (hdrWrite p.bar m buf off).2 <;> rw [hw] at h <;> simp at h
    | false => exact hro _ h
  | dflt => exact absurd h hns
  | cap =>
    dsimp only at h
    unfold capAccess at h
    cases hf : capFind p off count with
    | none => rw [hf] at h; simp at h
    | some c =>
      rw [hf] at h
      dsimp only at h
      by_cases h1 : off < c.off ∨ count > c.size
      · rw [if_pos h1] at h; simp at h
      rw [if_neg h1] at h
      by_cases h2 : write = true ∧ c.ro = true
      · rw [if_pos h2] at h; simp at h
      rw [if_neg h2] at h
      by_cases h3 : c.cbk = true
      · rw [if_pos h3] at h; exact absurd h hns
      rw [if_neg h3] at h
      by_cases h4 : write = false
      · rw [if_pos h4] at h; exact absurd h (hro _)
      rw [if_neg h4] at h
      by_cases h5 : off - c.off < c.hdr
      · rw [if_pos h5] at h; simp at h
      rw [if_neg h5] at h
      obtain ⟨g1, g2, g3, g4⟩ := capWrite_flr h
      exact ⟨rfl, by simpa using h4, g3, c, rfl, g1, g2, by omega⟩

/-- An access that resets the function is a write, and it ends with the device control register. -/
theorem loop_flr {dev : Dev} {p : Pci} (hb : Bounded p) (hx : OneExp p) (write : Bool) :
    ∀ (fuel : Nat) (m : Mem) (buf : List Byte) (count off done : Nat), off + count < U64 →
      Ev.flr ∈ (loop dev p write fuel m buf count off done).evs →
      write = true ∧ ∃ o, p.expOff = some o ∧ off ≤ o + 8 ∧ off + count = o + 10 := by
  intro fuel
  induction fuel with
  | zero => intro m buf count off done _ h; simp [loop] at h
  | succ fuel ih =>
    intro m buf count off done hlt h
    unfold loop at h
    by_cases h0 : count = 0
    · rw [if_pos h0] at h; simp at h
    rw [if_neg h0] at h
    cases hs : nextSegment p count off write with
    | none => rw [hs] at h; simp at h
    | some x =>
      obtain ⟨o, size⟩ := x
      rw [hs] at h
      dsimp only at h
      obtain ⟨_, hle, _, hcap, _⟩ := nextSegment_spec hb (by omega) hlt hs
      have here : Ev.flr ∈ (serve dev p o m buf size off write).evs →
          write = true ∧ ∃ o, p.expOff = some o ∧ off ≤ o + 8 ∧ off + count = o + 10 := by
        intro hf
        obtain ⟨g1, g2, g3, c, g4, g5, g6, g7⟩ := serve_flr hf
        obtain ⟨d, d1, d2, d3⟩ := hcap g1
        have := capFind_shorter hb hlt hle d1 d2
        rw [g4] at this
        cases this
        obtain ⟨e1, e2⟩ := hx c (capFind_some g4).1 g5 g6
        refine ⟨g2, c.off, e1, by omega, ?_⟩
        rw [e2] at d3
        omega
      cases hr : (serve dev p o m buf size off write).ret with
      | err e => rw [hr] at h; exact here h
      | fault f => rw [hr] at h; exact here h
      | ok n =>
        rw [hr] at h
        dsimp only at h
        by_cases h1 : n = 0
        · rw [if_pos h1] at h; exact here h
        rw [if_neg h1] at h
        by_cases h2 : n > size
        · rw [if_pos h2] at h; exact here h
        rw [if_neg h2] at h
        rcases List.mem_append.mp h with h | h
        · exact here h
        · obtain ⟨g1, o', g2, g3, g4⟩ := ih _ _ _ _ _ (by omega) h
          exact ⟨g1, o', g2, by omega, by omega⟩

/-- If one PCI Express capability was added, the library knows where it is. -/
theorem oneExp_of_reach {hasCb : Bool} {p : Pci} (h : Reach hasCb p)
    (h1 : (p.caps.filter (fun c => c.id == ID_EXP)).length ≤ 1) : OneExp p := by
  have hi := h.inv
  have key : ∀ c ∈ p.caps, c.id = ID_EXP → p.expOff = some c.off := by
    clear hi
    induction h with
    | init big bar => intro c hc; cases hc
    | @std p p' pos off size fl data hr e1 e2 e3 e4 e5 e6 ih =>
      obtain ⟨s, _, _, _, _, _, _, _, rfl⟩ := addStd_ok hr.inv (addCap_std e1 e2)
      intro c hc hid
      dsimp only at hc h1 ⊢
      rw [List.filter_append, List.length_append] at h1
      by_cases hexp : leAt data 0 1 = ID_EXP
      · rw [if_pos hexp]
        have h0 : (p.caps.filter (fun c => c.id == ID_EXP)).length = 0 := by
          have : ([(⟨false, leAt data 0 1, off, stdHdr (leAt data 0 1), s, fl.ro, fl.cbk⟩ : Cap)].filter
              (fun c => c.id == ID_EXP)).length = 1 := by simp [hexp]
          omega
        rcases List.mem_append.mp hc with hc | hc
        · exfalso
          rw [List.length_eq_zero_iff, List.filter_eq_nil_iff] at h0
          exact h0 c hc (by simpa using hid)
        · rw [List.mem_singleton.mp hc]
      · rw [if_neg hexp]
        rcases List.mem_append.mp hc with hc | hc
        · exact ih (by omega) c hc hid
        · rw [List.mem_singleton.mp hc] at hid; exact absurd hid hexp
    | @ext p p' pos off size fl data hr e1 e2 e3 e4 e5 ih =>
      have he : p'.caps = p.caps ∧ p'.expOff = p.expOff := by
        have := addCap_ext e1 e2
        unfold addExt at this
        dsimp only at this
        repeat' split at this
        all_goals first | (cases this; exact ⟨rfl, rfl⟩) | cases this
      rw [he.1] at h1 ⊢
      rw [he.2]
      exact ih h1
    | other hr _ ih => exact ih h1
  intro c hc he hid
  rcases List.mem_append.mp hc with hc | hc
  · refine ⟨key c hc hid, ?_⟩
    have := (hi.std c hc).size
    rw [hid] at this
    unfold stdSize at this
    rw [if_neg (by decide), if_pos rfl] at this
    exact (Option.some.inj this).symm
  · rw [(hi.ext c hc).ext] at he; cases he

end Verif.Pci

namespace Verif.Server
open Verif
open Verif.Dma (Fd)

/-- No request of the client is a write that runs into the device control register. -/
def Op.Aimed (p : Pci.Pci) (op : Op) : Prop :=
  ∀ env h body fds, op = .run env (.req h body fds) → h.cmd = 10 → leAt body 8 4 = 7 →
    ¬ Pci.RunsInto p (leAt body 0 8) (leAt body 12 4)

/-- Every function level reset happens with the flag `quiesced` set. -/
def Calm (evs : List Ev) : Prop := ∀ e ∈ evs, e ≠ .call (.reset .flr) false

theorem Calm.append {a b : List Ev} (ha : Calm a) (hb : Calm b) : Calm (a ++ b) := by
  intro e he
  rcases List.mem_append.mp he with h | h
  · exact ha e h
  · exact hb e h

theorem Calm.cons {e : Ev} {b : List Ev} (ha : e ≠ .call (.reset .flr) false) (hb : Calm b) : Calm (e :: b) := by
  intro x hx
  rcases List.mem_cons.mp hx with h | h
  · rw [h]; exact ha
  · exact hb x h

theorem calm_nil : Calm [] := fun _ h => by cases h

theorem calm_bracket {t : CbType} {c : Call} {q : Bool} (h : c ≠ .reset .flr ∨ q = true) : Calm (bracket t c q) := by
  intro e he
  simp only [bracket, List.mem_cons, List.not_mem_nil, or_false] at he
  rcases he with rfl | rfl | rfl
  · simp
  · rcases h with h | h <;> simp [h]
  · simp

theorem calm_flatMap {α : Type} {f : α → List Ev} {l : List α} (h : ∀ x ∈ l, Calm (f x)) : Calm (l.flatMap f) := by
  intro e he
  obtain ⟨x, hx, hxe⟩ := List.mem_flatMap.mp he
  exact h x hx e hxe

theorem calm_ofDma (q : Bool) (l : List Dma.Ev) : Calm (l.flatMap (ofDma q)) := by
  refine calm_flatMap fun x _ => ?_
  cases x with
  | register i => exact calm_bracket (.inl (by simp))
  | unregister i => exact calm_bracket (.inl (by simp))
  | mmap b l => exact .cons (by simp) calm_nil
  | munmap b l => exact .cons (by simp) calm_nil
  | close fd => exact .cons (by simp) calm_nil

theorem calm_ofIrq (q : Bool) (l : List Irq.Ev) : Calm (l.flatMap (ofIrq q)) := by
  refine calm_flatMap fun x _ => ?_
  cases x <;> exact .cons (by simp) calm_nil

theorem calm_closes (l : List (Option Fd)) : Calm (closes l) := by
  intro e he
  obtain ⟨x, _, rfl⟩ := List.mem_map.mp he
  simp

theorem calm_sent (l : List Wire.Sent) : Calm (l.map Ev.sent) := by
  intro e he
  obtain ⟨x, _, rfl⟩ := List.mem_map.mp he
  simp

theorem calm_deviceReset (cfg : Cfg) (env : Env) (st : St) {r : Reason} (h : r ≠ .flr) :
    Calm (deviceReset cfg env st r).2.2 := by
  rw [evs_deviceReset]
  by_cases hr : cfg.hasReset = true
  · rw [if_pos hr]; exact calm_bracket (.inl (by simpa using h))
  · rw [if_neg hr]; exact calm_nil

theorem calm_ofPci {q : Bool} {l : List Pci.Ev} (h : Pci.Ev.flr ∈ l → q = true) : Calm (l.flatMap (ofPci q)) := by
  refine calm_flatMap fun x hx => ?_
  cases x with
  | cb off buf w => exact .cons (by simp) calm_nil
  | flr => exact calm_bracket (.inr (h hx))

section
variable {cfg : Cfg} {p : Pci.Pci} (hsz : ∀ r ∈ cfg.tbl, r.size < U32) (hl : LayoutOk cfg.tbl p) (hx : Pci.OneExp p)
include hsz hl hx

theorem calm_access {env : Env} {st : St} {w : Bool} {body : List Byte} {fds : List Fd}
    (h : w = true → leAt body 8 4 = 7 → 16 ≤ body.length →
      st.quiesced = true ∨ ∀ o, st.pci.expOff = some o → leAt body 0 8 ≤ o + 8 → leAt body 0 8 + leAt body 12 4 ≠ o + 10)
    (hp : layout st.pci = layout p) : Calm (access cfg env st w body fds).evs := by
  have hl' := layoutOk_congr hp hl
  have hx' : Pci.OneExp st.pci := by
    have e1 : st.pci.all = p.all := by
      have := congrArg Pci.Pci.all hp
      exact this
    have e2 : st.pci.expOff = p.expOff := by
      have := congrArg (fun x : Pci.Pci => x.expOff) hp
      exact this
    intro c hc
    rw [e1] at hc
    rw [e2]
    exact hx c hc
  unfold access
  dsimp only [Done.pure]
  generalize hg : handlers cfg env st.pci = hd
  unfold Region.handleAccess
  by_cases h0 : body = []
  · rw [if_pos h0]; exact calm_nil
  rw [if_neg h0]
  by_cases hv : Region.validAccess cfg.tbl (stopCopy st.mig) w body = false
  · rw [if_pos hv]; exact calm_nil
  rw [if_neg hv]
  obtain ⟨r, ho⟩ := (Region.validAccess_iff hsz _ _ _).1 (by simpa using hv)
  dsimp only
  by_cases h1 : leAt body 12 4 = 0
  · rw [if_pos h1]; exact calm_nil
  rw [if_neg h1]
  by_cases h2 : env.alloc = false
  · rw [if_pos h2]; exact calm_nil
  rw [if_neg h2, ho.region]
  dsimp only
  have key : Calm (afterCalls cfg env st.quiesced st.pci (Region.regionAccess hd r (leAt body 8 4)
      (if w = true then body.drop 16 else List.replicate (leAt body 12 4) 0#8) (leAt body 0 8) w).2.2).2 := by
    unfold Region.regionAccess
    by_cases hcf : leAt body 8 4 = Region.CFG_IDX ∧ r.flags &&& Region.FLAG_ALWAYS_CB = 0
    · rw [if_pos hcf]
      have h7 : leAt body 8 4 = 7 := hcf.1
      have hlen : (if w = true then body.drop 16 else List.replicate (leAt body 12 4) 0#8).length = leAt body 12 4 := by
        cases w with
        | true =>
          have := ho.payload rfl
          simp only [if_true, List.length_drop]; omega
        | false => simp
      dsimp only [afterCalls]
      rw [List.append_nil, hlen]
      apply calm_ofPci
      intro hf
      have hin : leAt body 0 8 + leAt body 12 4 < U64 := by
        have h1 := ho.bound
        have h2 := hsz r (List.mem_of_getElem? ho.region)
        simp only [U32] at h2
        simp only [U64]
        omega
      obtain ⟨g1, o, g2, g3, g4⟩ := Pci.loop_flr hl'.bounded hx' w _ _ _ _ _ _ hin hf
      rcases h g1 h7 ho.len with h | h
      · exact h
      · exact absurd g4 (h o g2 g3)
    · rw [if_neg hcf]
      by_cases hcb : r.hasCb = false
      · rw [if_pos hcb]; exact calm_nil
      · rw [if_neg hcb]; exact .cons (by simp) calm_nil
  generalize Region.regionAccess hd r (leAt body 8 4)
      (if w = true then body.drop 16 else List.replicate (leAt body 12 4) 0#8) (leAt body 0 8) w = o at key
  obtain ⟨ret, b, cs⟩ := o
  cases ret with
  | ok n => dsimp only; split_ifs <;> exact key
  | err e => exact key
  | fault f => exact key

theorem calm_exec {env : Env} {st : St} {m : Msg} (hp : layout st.pci = layout p)
    (h : m.hdr.cmd = 10 → leAt m.body 8 4 = 7 → 16 ≤ m.body.length →
      st.quiesced = true ∨ ∀ o, st.pci.expOff = some o → leAt m.body 0 8 ≤ o + 8 →
        leAt m.body 0 8 + leAt m.body 12 4 ≠ o + 10) : Calm (exec cfg env st m).evs := by
  refine exec_elim (P := fun d => Calm d.evs) cfg env st m ?_ ?_ ?_ ?_ ?_ ?_ ?_ ?_ ?_ ?_ ?_ ?_ ?_ ?_ ?_
  · exact fun _ _ => calm_nil
  · exact fun c _ _ => dmaMap_elim (P := fun d => Calm d.evs) cfg env st c _ _ (fun _ _ => calm_nil)
      (fun _ _ => calm_ofDma _ _)
  · exact fun c _ _ => dmaUnmap_elim (P := fun d => Calm d.evs) cfg env st c _ _ (fun _ _ => calm_nil)
      (fun _ _ _ _ => calm_ofDma _ _)
  · exact fun _ => calm_nil
  · exact fun _ => calm_nil
  · exact fun _ => calm_nil
  · exact fun _ => calm_nil
  · exact fun _ => calm_ofIrq _ _
  · exact fun _ => calm_access hsz hl hx (fun h => by cases h) hp
  · exact fun hc => calm_access hsz hl hx (fun _ => h hc) hp
  · exact fun _ => calm_deviceReset cfg env st (by simp)
  · exact fun _ => calm_flatMap fun _ _ => calm_bracket (.inl (by simp))
  · intro _ e he
    obtain ⟨x, _, rfl⟩ := List.mem_map.mp he
    simp
  · intro _ e he
    obtain ⟨x, _, rfl⟩ := List.mem_map.mp he
    simp
  · exact fun _ => calm_nil

omit hsz hl hx

theorem calm_resetQuiesced (env : Env) (st : St) : Calm (resetQuiesced cfg env st).evs := by
  unfold resetQuiesced
  cases dropDma cfg st.dma with
  | err e => exact calm_nil
  | fault f => exact calm_nil
  | ok x =>
    obtain ⟨dma, ev1⟩ := x
    dsimp only
    have h2 := calm_deviceReset cfg env { st with dma } (r := .lostConn) (by simp)
    cases Irq.reset cfg.irq (deviceReset cfg env { st with dma } .lostConn).1.irqs with
    | err e => exact (calm_ofDma _ _).append h2
    | fault f => exact (calm_ofDma _ _).append h2
    | ok y => exact (((calm_ofDma _ _).append h2).append (calm_ofIrq _ _)).append (.cons (by simp) calm_nil)

theorem calm_resetCtx (env : Env) (k : Nat) (st : St) : Calm (resetCtx cfg env k st).evs := by
  unfold resetCtx
  by_cases hc : cfg.hasQuiesce = true ∧ st.pending = .none
  · rw [if_pos hc]
    dsimp only
    have hb : Calm (bracket .quiesce (.quiesce (env.quiesce k)) st.quiesced) := calm_bracket (.inl (by simp))
    cases hk : env.quiesce k with
    | none =>
      rw [hk] at hb
      exact hb.append (calm_resetQuiesced env st)
    | some e =>
      rw [hk] at hb
      dsimp only
      by_cases he : e = EBUSY
      · rw [if_pos he]; exact hb
      · rw [if_neg he]; exact hb
  · rw [if_neg hc]; exact calm_resetQuiesced env st

theorem calm_doReply (env : Env) (k : Nat) (st : St) (hd : Wire.Hdr) (b : Wire.Body) (fds : List (Option Fd)) (err : Nat) :
    Calm (doReply cfg env k st hd b fds err).evs := by
  unfold doReply
  by_cases hn : hd.noReply = true
  · rw [if_pos hn]; exact calm_nil
  rw [if_neg hn]
  dsimp only
  cases (Wire.reply env.snd hd b fds (err % U32)).1 with
  | ok u => exact calm_sent _
  | error e =>
    dsimp only
    by_cases he : e = ECONNRESET ∨ e = ENOMSG
    · rw [if_pos he]; exact (calm_sent _).append (calm_resetCtx env k st)
    · rw [if_neg he]; exact calm_sent _

theorem calm_refuse (env : Env) (k : Nat) (st : St) (hd : Wire.Hdr) (fds : List Fd) (err : Nat) :
    Calm (refuse cfg env k st hd fds err).evs := by
  have h := calm_doReply (cfg := cfg) env k st hd (.bytes []) [] err
  unfold refuse
  dsimp only
  by_cases hf : (doReply cfg env k st hd (.bytes []) [] err).res.isFault = true
  · rw [if_pos hf]; exact h
  · rw [if_neg hf]; exact (h.append (calm_closes _)).append (.cons (by simp) calm_nil)

include hsz hl hx

theorem calm_handleRequest {env : Env} (k : Nat) {st : St} {m : Msg} (hp : layout st.pci = layout p)
    (h : m.hdr.cmd = 10 → leAt m.body 8 4 = 7 → 16 ≤ m.body.length →
      st.quiesced = true ∨ ∀ o, st.pci.expOff = some o → leAt m.body 0 8 ≤ o + 8 →
        leAt m.body 0 8 + leAt m.body 12 4 ≠ o + 10) : Calm (handleRequest cfg env k st m).evs := by
  have he := calm_exec hsz hl hx (env := env) hp h
  unfold handleRequest
  dsimp only
  generalize exec cfg env st m = d at he
  have he' : Calm (.exec m.hdr :: d.evs) := .cons (by simp) he
  by_cases hf : d.res.isFault = true
  · rw [if_pos hf]; exact he'
  rw [if_neg hf]
  have h1 := he'.append (calm_doReply (cfg := cfg) env k d.st m.hdr d.out d.outFds (replyErr d.res))
  unfold finish
  dsimp only
  by_cases hf : (doReply cfg env k d.st m.hdr d.out d.outFds (replyErr d.res)).res.isFault = true
  · rw [if_pos hf]; exact h1
  · rw [if_neg hf]; exact (h1.append (calm_closes _)).append (.cons (by simp) calm_nil)

theorem calm_call (hq : cfg.hasQuiesce = true) {st : St} (hp : layout st.pci = layout p) (op : Op) (ha : op.Aimed p) :
    Calm (call cfg st op).evs := by
  have eo : st.pci.expOff = p.expOff := by
    have := congrArg (fun x : Pci.Pci => x.expOff) hp
    exact this
  cases op with
  | run env i =>
    show Calm (poll cfg env st i).evs
    unfold poll
    by_cases h1 : st.pending ≠ .none
    · rw [if_pos h1]; exact calm_nil
    rw [if_neg h1]
    by_cases h2 : st.conn = false
    · rw [if_pos h2]; exact calm_nil
    rw [if_neg h2]
    cases i with
    | again => exact calm_nil
    | lost e leak => exact .cons (by simp) (calm_resetCtx env 0 st)
    | failed e leak => exact .cons (by simp) calm_nil
    | bad h fds e => exact .cons (by simp) (calm_refuse env 0 st h fds e)
    | req h body fds =>
      refine .cons (by simp) ?_
      have hna := ha env h body fds rfl
      change Calm (dispatch cfg env st ⟨h, body, fds⟩).evs
      unfold dispatch
      dsimp only
      by_cases h3 : shouldExec st.mig h.cmd = false
      · rw [if_pos h3]; exact calm_refuse env 0 st _ _ _
      rw [if_neg h3]
      have hb : Calm (bracket .quiesce (.quiesce (env.quiesce 0)) st.quiesced) := calm_bracket (.inl (by simp))
      by_cases h4 : needsQuiesce cfg st ⟨h, body, fds⟩ = true
      · rw [if_pos h4]
        cases hk : env.quiesce 0 with
        | none =>
          rw [hk] at hb
          exact hb.append (calm_handleRequest hsz hl hx 1 (st := { st with quiesced := true }) hp (fun _ _ _ => .inl rfl))
        | some e =>
          rw [hk] at hb
          dsimp only
          by_cases he : e = EBUSY
          · rw [if_pos he]; exact hb
          · rw [if_neg he]; exact hb.append (calm_refuse env 1 st _ _ _)
      · rw [if_neg h4]
        refine calm_handleRequest hsz hl hx 0 hp fun hc h7 hlen => .inr ?_
        dsimp only at hc h7 hlen ⊢
        intro o ho hle hend
        rw [eo] at ho
        by_cases hat : leAt body 0 8 = o + 8
        · apply h4
          unfold needsQuiesce
          dsimp only
          rw [if_neg (by rw [hq]; simp), if_neg (by rw [hc]; decide), if_neg (by rw [hc]; decide), if_pos (by rw [hc]; decide),
            if_neg (by omega)]
          unfold Pci.isPxdc
          rw [eo, ho, h7, hat]
          simp
        · exact hna hc h7 ⟨o, ho, by omega, hend⟩
  | quiesced env e =>
    show Calm (deviceQuiesced cfg env st e).evs
    unfold deviceQuiesced
    by_cases h : cfg.hasQuiesce = false ∨ st.pending = .none
    · rw [if_pos h]; exact calm_nil
    rw [if_neg h]
    dsimp only
    refine .cons (by simp) ?_
    by_cases he : e = 0
    · rw [if_pos he]
      cases hpd : st.pending with
      | none => exact calm_nil
      | msg m =>
        have := calm_handleRequest hsz hl hx (env := env) 0 (m := m) (st := { st with quiesced := true }) hp (fun _ _ _ => .inl rfl)
        simpa only [hpd] using this
      | ctxReset =>
        have := calm_resetQuiesced (cfg := cfg) env { st with quiesced := true }
        simpa only [hpd] using this
    · rw [if_neg he]
      cases st.pending with
      | none => exact calm_nil
      | msg m => exact (calm_closes _).append (.cons (by simp) calm_nil)
      | ctxReset => exact calm_nil
  | transfer env lost =>
    show Calm (transfer cfg env st lost).evs
    unfold transfer
    by_cases h1 : st.pending ≠ .none
    · rw [if_pos h1]; exact calm_nil
    rw [if_neg h1]
    by_cases h : lost = true ∧ st.conn = true
    · rw [if_pos h]; exact calm_resetCtx env 0 st
    · rw [if_neg h]; exact calm_nil
  | attach n =>
    show Calm (attach st n).evs
    unfold attach
    by_cases h : st.conn = true
    · rw [if_pos h]; exact calm_nil
    rw [if_neg h]
    cases n <;> exact calm_nil
  | config f => exact calm_nil
  | mark sgl =>
    simp only [call]
    cases st.dma with
    | none => exact calm_nil
    | some c => dsimp only; cases Dma.sglMark c sgl <;> exact calm_nil
  | trigger wr sub => exact calm_ofIrq _ _

theorem calm_run (hq : cfg.hasQuiesce = true) (dma : Option (Nat × Nat)) (ops : List Op) :
    ∀ st, Core cfg dma p st → (∀ op ∈ ops, op.OSOk ∧ op.Aimed p) → Calm (run cfg st ops).2 := by
  induction ops with
  | nil => intro st _ _; exact calm_nil
  | cons op ops ih =>
    intro st hc ho
    have h1 := calm_call hsz hl hx hq hc.pci op (ho op (.head _)).2
    have h2 := (core_kept cfg dma p).call hc op (ho op (.head _)).1
    simp only [run]
    by_cases h : (call cfg st op).res.isFault = true
    · rw [if_pos h]; exact h1
    · rw [if_neg h]; exact h1.append (.cons (by simp) (ih _ h2 fun o h => ho o (.tail _ h)))

/-- C77: in every history of a device with a quiesce callback and one PCI Express capability, whose client does not send
config space writes that start before the device control register and end right behind it, the device has been quiesced
whenever a function level reset runs its reset callback. -/
theorem C77_quiesced (hq : cfg.hasQuiesce = true) (mig : Bool) (dma : Option (Nat × Nat)) (ops : List Op)
    (ho : ∀ op ∈ ops, op.OSOk ∧ op.Aimed p) {a b : List Ev} {q : Bool}
    (h : (run cfg (init cfg mig dma p) ops).2 = a ++ .call (.reset .flr) q :: b) : QuiescedAt a := by
  have hc : Core cfg dma p (init cfg mig dma p) := by
    refine ⟨⟨⟨[], (fun op h => by cases h), rfl⟩, [], rfl⟩, ?_, rfl⟩
    intro n hn
    cases mig with
    | true => cases hn; exact ⟨.running, rfl⟩
    | false => cases hn
  have h1 := calm_run hsz hl hx hq dma ops _ hc ho
  have hq' : q = true := by
    cases q with
    | true => rfl
    | false => exact absurd rfl (h1 (.call (.reset .flr) false) (by rw [h]; simp))
  exact ((C60_bookkeeping cfg (init cfg mig dma p) rfl ops).1 a b _ q h).2 hq'

end

/-- C77: the function level reset as a client knows it, a write of two bytes with bit 15 set to the device control register of a
device that announces the reset: the quiesce callback, then the reset callback, and its result is the answer. -/
theorem C77_served {cfg : Cfg} (ht : TableOk cfg.tbl) (hs : ∀ r ∈ cfg.tbl, r.size < U32) {env : Env} {st : St} {m : Msg}
    (hn : Next cfg env st m) (hc : m.hdr.cmd = 10) {r : Region.Reg}
    (hok : Region.AccessOk cfg.tbl (decide (st.mig = some 3)) true m.body r) (hcf : leAt m.body 8 4 = 7)
    (hfl : r.flags.testBit 3 = false) (hcnt : leAt m.body 12 4 = 2) (hh : Pci.Honest (pciDev cfg env))
    (hb : Pci.Bounded st.pci) (hdj : Pci.Disj st.pci) {c : Pci.Cap} (hcm : c ∈ st.pci.all) (hk : c.cbk = false)
    (he : c.ext = false) (hid : c.id = Pci.ID_EXP) (hsz : c.size = 0x3c) (hro : c.ro = false) (hhdr : c.hdr = 2)
    (hoff : leAt m.body 0 8 = c.off + 8) (hexp : st.pci.expOff = some c.off) (hq : cfg.hasQuiesce = true)
    (hr : cfg.hasReset = true) (h1 : (m.body.getD 17 0#8).getLsbD 7 = true)
    (h2 : (st.pci.mem (c.off + 7)).getLsbD 4 = true) :
    let o := call cfg st (.run env (.req m.hdr m.body m.fds))
    calls o.evs = [.quiesce none, .reset .flr] ∧
      (env.resetCb .flr = none → Answered m 0 (m.body.take 16) o) ∧
      (∀ e, env.resetCb .flr = some e → e < U32 → ∃ l, Answered m e l o) := by
  intro o
  have hgv : given m = m.body.drop 16 := by unfold given; rw [if_pos hc]
  have hlen : (m.body.drop 16).length = 2 := by
    have := hok.payload rfl
    rw [List.length_drop]; omega
  have hbit : ((m.body.drop 16).getD 1 0#8).getLsbD 7 = true := by
    rw [← h1, List.getD_eq_getElem?_getD, List.getD_eq_getElem?_getD, List.getElem?_drop]
  have hcd : decide (m.hdr.cmd = 10) = true := by simp [hc]
  obtain ⟨f, hf⟩ : ∃ f, (pciDev cfg env).reset = some f := by unfold pciDev; rw [hr]; exact ⟨_, rfl⟩
  have hfm : ∀ x, (f x).2 = match env.resetCb .flr with | none => .ok () | some e => .err e := by
    intro x
    unfold pciDev at hf
    rw [hr] at hf
    simp only [if_true] at hf
    cases hf
    rfl
  have hevs := ((Pci.C66_flr hh hb hdj hcm hk he hid hsz hro hhdr hlen).1).2 ⟨hbit, h2, by rw [hf]; simp⟩
  obtain ⟨x, hres⟩ := Pci.C66_result hh hb hdj hcm hk he hid hsz hro hhdr hlen hbit h2 hf
  rw [hfm x] at hres
  have hnf : (Pci.access (pciDev cfg env) st.pci (m.body.drop 16) 2 (c.off + 8) true).ret.isFault = false := by
    rcases hres with ⟨_, h⟩ | ⟨e, _, h⟩ <;> rw [h] <;> rfl
  have hm := C73_config ht hs hn (.inr hc) (r := r) (by rw [hcd]; exact hok) (by omega) hcf hfl
    (by rw [hcd, hgv, hcnt, hoff]; exact hnf)
  dsimp only at hm
  rw [hcd, hgv, hcnt, hoff, hevs] at hm
  obtain ⟨g1, _, _, g4⟩ := hm
  refine ⟨?_, fun hn => ?_, fun e he hlt => ?_⟩
  · refine g4.trans ?_
    have hb : before cfg st m = [.quiesce none] := by
      unfold before
      rw [if_pos]
      unfold needsQuiesce
      rw [if_neg (by rw [hq]; simp), if_neg (by rw [hc]; decide), if_neg (by rw [hc]; decide), if_pos (by rw [hc]; decide),
        if_neg (by have := hok.len; omega)]
      unfold Pci.isPxdc
      rw [hcf, hexp, hoff]
      simp
    rw [hb]
    rfl
  · have hret : (Pci.access (pciDev cfg env) st.pci (m.body.drop 16) 2 (c.off + 8) true).ret = .ok 2 := by
      rcases hres with ⟨_, h⟩ | ⟨e, h, _⟩
      · exact h
      · rw [hn] at h; cases h
    have := g1.1 (by rw [hret, hcnt]) (fun h => by rw [hc] at h; cases h)
    unfold accessReply at this
    rw [if_pos hc, List.append_nil] at this
    exact this
  · have hret : (Pci.access (pciDev cfg env) st.pci (m.body.drop 16) 2 (c.off + 8) true).ret = .err e := by
      rcases hres with ⟨h, _⟩ | ⟨e', h, h'⟩
      · rw [he] at h; cases h
      · rw [he] at h; cases h; exact h'
    exact g1.2.2 e hret hlt

section
open Demo

/-- The device of the examples with the config space of `Pci.ex8`: a PCI Express capability at 0x7c that announces the function
level reset. -/
def flrDev : Cfg := { cfg with tbl := (List.replicate 9 Region.Reg.blank).set 7 { Region.Reg.blank with flags := 3, size := 4096 } }

/-- A write of `bs` at offset `off` of the config space. -/
def cfgBody (off : Nat) (bs : List Byte) : List Byte := enc 8 off ++ enc 4 7 ++ enc 4 bs.length ++ bs

theorem flr_one : Pci.OneExp Pci.ex8 := Pci.oneExp_of_reach Pci.ex8_reach (by decide +kernel)

theorem flr_layout : LayoutOk flrDev.tbl Pci.ex8 where
  bounded := Pci.ex8_reach.inv.bnd
  sized := by unfold Pci.Sized; decide +kernel
  disj := Pci.disj_of_inv Pci.ex8_reach.inv
  region := by
    intro r hr
    have : flrDev.tbl[7]? = some { Region.Reg.blank with flags := 3, size := 4096 } := by decide
    rw [this] at hr
    cases hr
    decide +kernel

/-- The device is reset at once, and after a quiesce that takes its time. -/
def flrOps : List Op :=
  [.attach (.ok ⟨8, 1048576, 4096, false⟩), .run env (req 1 10 0 (cfgBody 0x84 (enc 2 0x8000)) []),
    .run busy (req 2 10 0 (cfgBody 0x84 (enc 2 0x8000)) []), .quiesced env 0]

example : ((run flrDev (init flrDev true none Pci.ex8) flrOps).2.filter
    (fun e => match e with | .call _ _ | .devQuiesced _ => true | _ => false)) =
      [.call (.quiesce none) false, .call (.reset .flr) true, .call (.quiesce (some EBUSY)) false, .devQuiesced 0,
        .call (.reset .flr) true] := by
  decide +kernel

theorem cfg_real (id off : Nat) (bs : List Byte) (hi : id < 65536) (hl : bs.length ≤ 1048576) :
    Real (req id 10 0 (cfgBody off bs) []) := by
  have : (cfgBody off bs).length = 16 + bs.length := by simp [cfgBody, enc_length]; omega
  refine req_real _ _ _ _ _ hi (by decide) (by decide) (by decide) (by omega) (.inl fun h => ?_) (by decide)
  rw [h] at this
  simp at this
  omega

example {a b : List Ev} {q : Bool}
    (h : (run flrDev (init flrDev true none Pci.ex8) flrOps).2 = a ++ .call (.reset .flr) q :: b) : QuiescedAt a := by
  refine C77_quiesced (by decide) flr_layout flr_one rfl true none flrOps ?_ h
  have hx : Pci.ex8.expOff = some 0x7c := by decide +kernel
  have hr : ¬ Pci.RunsInto Pci.ex8 0x84 2 := by
    rintro ⟨o, h1, h2, _⟩
    rw [hx] at h1
    cases h1
    omega
  intro op hop
  simp only [flrOps, List.mem_cons, List.not_mem_nil, or_false] at hop
  rcases hop with rfl | rfl | rfl | rfl
  · exact ⟨(fun _ h => by cases h), fun _ _ _ _ h => by cases h⟩
  · refine ⟨(fun _ h => by cases h; exact os_ok), fun _ _ _ _ h _ _ => ?_⟩
    cases h
    exact hr
  · refine ⟨(fun _ h => by cases h; exact os_ok), fun _ _ _ _ h _ _ => ?_⟩
    cases h
    exact hr
  · exact ⟨(fun _ h => by cases h; exact os_ok), fun _ _ _ _ h => by cases h⟩

/-- The device refuses the reset. -/
example :
    let st : St := { init flrDev true none Pci.ex8 with conn := true, maxFds := 8, maxXfer := 1048576 }
    let e : Env := { env with resetCb := fun _ => some 5 }
    let m : Msg := ⟨hdr 7 10 0 18, cfgBody 0x84 (enc 2 0x8000), []⟩
    let o := call flrDev st (.run e (.req m.hdr m.body m.fds))
    calls o.evs = [.quiesce none, .reset .flr] ∧ ∃ l, Answered m 5 l o := by
  intro st e m o
  have hn : Next flrDev e st m :=
    { fair := fair_env rfl rfl rfl (fun _ _ h => by cases h), os := os_ok, real := cfg_real 7 0x84 (enc 2 0x8000) (by decide) (by decide)
      awaits := ⟨rfl, rfl⟩, permitted := .inr (.inr (.inl rfl)), quiesce := fun _ => rfl }
  have hh : Pci.Honest (pciDev flrDev e) :=
    ⟨fun f hf => by simp [pciDev, flrDev, Region.CFG_IDX, Region.Reg.blank] at hf, fun f hf x => by
      simp only [pciDev] at hf; cases hf; exact .inr ⟨5, rfl⟩⟩
  have h := C77_served (cfg := flrDev) (fun r hr hne => absurd (by revert r; decide) hne) (by decide) hn rfl
    (r := { Region.Reg.blank with flags := 3, size := 4096 })
    ⟨by decide, by decide, fun _ => by decide, by decide, by decide, by decide⟩ (by decide) (by decide) (by decide) hh
    Pci.ex8_reach.inv.bnd (Pci.disj_of_inv Pci.ex8_reach.inv) (c := ⟨false, 0x10, 0x7c, 2, 0x3c, false, false⟩)
    (by decide +kernel) rfl rfl rfl rfl rfl rfl (by decide) (by decide +kernel) rfl rfl (by decide) (by decide +kernel)
  exact ⟨h.1, h.2.2 5 rfl (by decide)⟩

/-- A vendor capability of 16 bytes at 0x40, and a PCI Express capability behind it at 0x50. -/
def leaky : Pci.Pci :=
  (Pci.addCap true (Pci.addCap true (Pci.init false (fun _ => (0, false))) 0 Pci.std (Pci.pad [9, 0, 16] 16)).1 0 Pci.std
    (Pci.pad [0x10, 0, 2, 0, 0, 0, 0, 0x10] 0x3c)).1

theorem leaky_reach : Pci.Reach true leaky :=
  ((Pci.Reach.init false (fun _ => (0, false))).addStd 0 Pci.std _ 0x40 16 rfl (by decide +kernel) rfl (by decide +kernel)
    (by decide +kernel)).addStd 0 Pci.std _ 0x50 0x3c rfl (by decide +kernel) rfl (by decide +kernel) (by decide +kernel)

/-- C77 without its proviso: a write of 18 bytes that starts in the capability before and ends with the device control register
resets a device that was never asked to quiesce. -/
theorem C77_violated :
    let c : Cfg := { flrDev with tbl := (List.replicate 9 Region.Reg.blank).set 7 { Region.Reg.blank with flags := 3, size := 256 } }
    let i := req 1 10 0 (cfgBody 0x48 (List.replicate 15 0#8 ++ [0x10] ++ enc 2 0x8000)) []
    Pci.Reach true leaky ∧ Pci.OneExp leaky ∧ c.hasQuiesce = true ∧ Real i ∧
      (run c (init c true none leaky) [.attach (.ok ⟨8, 1048576, 4096, false⟩), .run env i]).2.filterMap
        (fun e => match e with | .call x q => some (x, q) | _ => none) = [(.reset .flr, false)] :=
  ⟨leaky_reach, Pci.oneExp_of_reach leaky_reach (by decide +kernel), rfl, cfg_real _ _ _ (by decide) (by decide), by decide +kernel⟩

end

end Verif.Server
