import Verif.Server.Serve
import Verif.Server.Ledger
import Verif.Server.Crash
import Verif.Dma.Props6

/-!
# C72: DMA requests are answered as the client's account says -/

namespace Verif.Server
open Verif
open Verif.Dma (Fd Tbl Represents)

/-- An unmap request the server must not execute (`docs/vfio-user.rst`, `lib/libvfio-user.c:745-797`): unknown flags, a
maximum reply size over 1 MiB or too small for the reply, an address or size with the flag ALL. -/
def BadUnmap (body : List Byte) : Prop :=
  let argsz := leAt body 0 4
  let flags := leAt body 4 4
  2 < flags ∨ 1048576 < argsz ∨ argsz < (if flags = 1 then 40 + leAt body 32 8 else 24) ∨
    flags = 2 ∧ (leAt body 8 8 ≠ 0 ∨ leAt body 16 8 ≠ 0)

theorem validUnmap_iff {body : List Byte} (h1 : 24 ≤ body.length) (h2 : leAt body 4 4 = 1 → 40 ≤ body.length) :
    (BadUnmap body → validUnmap body = .err EINVAL) ∧ (¬ BadUnmap body → validUnmap body = .ok ()) := by
  have r4 : rd body 4 4 = .ok (leAt body 4 4) := if_pos (by omega)
  have r8 : rd body 8 8 = .ok (leAt body 8 8) := if_pos (by omega)
  have r16 : rd body 16 8 = .ok (leAt body 16 8) := if_pos (by omega)
  unfold validUnmap validUnmap.lengths BadUnmap UNMAP_DIRTY UNMAP_ALL Region.MAX_XFER
  rw [r4]
  dsimp only
  by_cases hf1 : leAt body 4 4 = 1
  · have hl := h2 hf1
    have r32 : rd body 32 8 = .ok (leAt body 32 8) := if_pos (by omega)
    have hb : leAt body 32 8 < 2 ^ 64 := lt_of_lt_of_eq (leAt_lt body 8 32) (by norm_num)
    have hs := Dma.C19_sat64 40 (leAt body 32 8) (by norm_num) hb
    rw [if_pos hf1, if_pos hf1, r32]
    dsimp only
    rw [if_neg (by omega), hs.1]
    generalize leAt body 32 8 = bs at hb
    generalize leAt body 0 4 = az
    clear r4 r8 r16 r32 hs
    split_ifs with h
    · exact ⟨fun _ => rfl, fun hn => absurd (by omega) hn⟩
    · exact ⟨fun hn => absurd hn (by omega), fun _ => rfl⟩
  rw [if_neg hf1, if_neg hf1]
  by_cases hf2 : leAt body 4 4 = 2
  · rw [if_pos hf2, r8]
    dsimp only
    by_cases ha : leAt body 8 8 = 0
    · rw [if_neg (by omega), r16]
      dsimp only
      by_cases hz : leAt body 16 8 = 0
      · rw [if_neg (by omega), if_neg (by omega)]
        split_ifs with h
        · exact ⟨fun _ => rfl, fun hn => absurd (by omega) hn⟩
        · exact ⟨fun hn => absurd hn (by omega), fun _ => rfl⟩
      · rw [if_pos hz]; exact ⟨fun _ => rfl, fun hn => absurd (by omega) hn⟩
    · rw [if_pos ha]; exact ⟨fun _ => rfl, fun hn => absurd (by omega) hn⟩
  rw [if_neg hf2]
  by_cases hf0 : leAt body 4 4 = 0
  · rw [if_pos hf0, if_neg (by omega)]
    split_ifs with h
    · exact ⟨fun _ => rfl, fun hn => absurd (by omega) hn⟩
    · exact ⟨fun hn => absurd hn (by omega), fun _ => rfl⟩
  · rw [if_neg hf0]; exact ⟨fun _ => rfl, fun hn => absurd (by omega) hn⟩

theorem C02_at {c : Dma.Ctl} (hi : Dma.Inv2 c) {t : Tbl} (hr : Represents c t) (u : Bool) (a s : Nat) (b : Option (List Byte)) :
    ((t a s).isSome → (Dma.unmapTail u c a s b).2.1 = .ok b) ∧
    (t a s = none → (Dma.unmapTail u c a s b).2.1 = .err ENOENT ∧ (Dma.unmapTail u c a s b).1 = c) := by
  have hcon := hi.consistent
  have hex : (t a s).isSome ↔ ∃ r ∈ c.regions, r.info.base = a ∧ r.info.len = s := by
    constructor
    · intro h
      obtain ⟨v, hv⟩ := Option.isSome_iff_exists.mp h
      obtain ⟨r, h1, h2, h3, _⟩ := (hr.1 a s v).mp hv
      exact ⟨r, h1, h2, h3⟩
    · rintro ⟨r, h1, h2, h3⟩
      rw [(hr.1 a s ⟨r.info.prot, r.offset, r.fd⟩).mpr ⟨r, h1, h2, h3, rfl, rfl, rfl⟩]
      rfl
  unfold Dma.unmapTail Dma.removeRegion
  cases hl : Dma.removeLoop u a s c.regions with
  | ok x =>
    obtain ⟨l1, r, l2, h1, _, h3, h4, _⟩ := Dma.removeLoop_ok _ _ _ hl
    refine ⟨fun _ => rfl, fun hn => ?_⟩
    have := hex.mpr ⟨r, by rw [h1]; simp, h3, h4⟩
    rw [hn] at this
    cases this
  | err e =>
    obtain ⟨rfl, hn⟩ := Dma.removeLoop_err _ _ hl
    refine ⟨fun h => ?_, fun _ => ⟨rfl, rfl⟩⟩
    obtain ⟨r, hr', hx⟩ := hex.mp h
    exact absurd hx (hn r hr')
  | fault f => exact absurd hl (Dma.removeLoop_nofault _ hcon f)

/-! ## Execution -/

section
variable {cfg : Cfg} {env : Env} {st : St} {c : Dma.Ctl} {t : Tbl} {m : Msg}

theorem exec_unmap (hd : st.dma = some c) (hcmd : m.hdr.cmd = 3) :
    exec cfg env st m = dmaUnmap cfg env st c m.body m.fds := by
  unfold exec
  exact (if_neg (show ¬ m.hdr.cmd = Wire.CMD_DMA_MAP by rw [hcmd]; decide)).trans ((if_pos hcmd).trans (by rw [hd]))

theorem unmap_bad (h1 : 24 ≤ m.body.length) (h2 : leAt m.body 4 4 = 1 → 40 ≤ m.body.length) (hb : BadUnmap m.body) :
    (dmaUnmap cfg env st c m.body m.fds).res = .err EINVAL ∧ (dmaUnmap cfg env st c m.body m.fds).out = .bytes [] ∧
      (dmaUnmap cfg env st c m.body m.fds).st = st := by
  unfold dmaUnmap
  rw [if_neg (by intro h; rw [h] at h1; simp at h1), (validUnmap_iff h1 h2).1 hb]
  exact ⟨rfl, rfl, rfl⟩

/-- A valid request, by its kind. -/
theorem unmap_valid (h1 : 24 ≤ m.body.length) (h2 : leAt m.body 4 4 = 1 → 40 ≤ m.body.length) (hb : ¬ BadUnmap m.body) :
    (∀ c' ev, Dma.handleUnmap env.alloc cfg.dma.hasUnreg c (leAt m.body 8 8) (leAt m.body 16 8) (unmapKind env m.body) =
        (c', .ok none, ev) → (dmaUnmap cfg env st c m.body m.fds).res = .ok () ∧
        (dmaUnmap cfg env st c m.body m.fds).out = .bytes (m.body.take 24) ∧
        (dmaUnmap cfg env st c m.body m.fds).st = { st with dma := some c' }) ∧
    (∀ c' bm ev, Dma.handleUnmap env.alloc cfg.dma.hasUnreg c (leAt m.body 8 8) (leAt m.body 16 8) (unmapKind env m.body) =
        (c', .ok (some bm), ev) → (dmaUnmap cfg env st c m.body m.fds).res = .ok () ∧
        (dmaUnmap cfg env st c m.body m.fds).out = .bytes (m.body.take 40 ++ bm) ∧
        (dmaUnmap cfg env st c m.body m.fds).st = { st with dma := some c' }) ∧
    (∀ c' e ev, Dma.handleUnmap env.alloc cfg.dma.hasUnreg c (leAt m.body 8 8) (leAt m.body 16 8) (unmapKind env m.body) =
        (c', .err e, ev) → (dmaUnmap cfg env st c m.body m.fds).res = .err e ∧
        (dmaUnmap cfg env st c m.body m.fds).out = .bytes [] ∧
        (dmaUnmap cfg env st c m.body m.fds).st = { st with dma := some c' }) := by
  unfold dmaUnmap
  rw [if_neg (by intro h; rw [h] at h1; simp at h1), (validUnmap_iff h1 h2).2 hb]
  dsimp only
  refine ⟨?_, ?_, ?_⟩ <;> (intros; rename_i h; rw [h]; exact ⟨rfl, rfl, rfl⟩)

end

/-! ## The table of a conversation -/

/-- Map requests of ranges that end below 2^64, to which the client wants replies. -/
def Plain (i : Wire.In) : Prop := Replied i ∧ ∀ h body fds, i = .req h body fds → h.cmd = 2 → leAt body 16 8 + leAt body 24 8 < U64

/-- The table is one that DMA operations on non-wrapping ranges produce. -/
def Tidy (cfg : Cfg) (x : Nat × Nat) (d : Option Dma.Ctl) : Prop :=
  ∃ dops : List Dma.Op, (∀ op ∈ dops, op.OSOk ∧ op.Bounded ∧ op.NoWrap) ∧
    d = some (Dma.run cfg.dma (Dma.create x.1 x.2) dops).1

theorem Tidy.step {cfg : Cfg} {x : Nat × Nat} {c : Dma.Ctl} (h : Tidy cfg x (some c)) {op : Dma.Op} (h1 : op.OSOk)
    (h2 : op.Bounded) (h3 : op.NoWrap) : Tidy cfg x (some (Dma.step cfg.dma c op).1) := by
  obtain ⟨dops, g1, g2⟩ := h
  cases g2
  refine ⟨dops ++ [op], fun o ho => ?_, by rw [dma_run_snoc]⟩
  rcases List.mem_append.mp ho with ho | ho
  · exact g1 o ho
  · rw [List.mem_singleton.mp ho]; exact ⟨h1, h2, h3⟩

theorem Tidy.quiet {cfg : Cfg} {x : Nat × Nat} {c : Dma.Ctl} (h : Tidy cfg x (some c)) {op : Dma.Op}
    (hm : ∀ os q, op ≠ .map os q) : Tidy cfg x (some (Dma.step cfg.dma c op).1) := by
  cases op with
  | map os q => exact absurd rfl (hm _ _)
  | _ => exact h.step trivial trivial trivial

theorem Tidy.reset {cfg : Cfg} {x : Nat × Nat} (env : Env) {st : St} (h : Tidy cfg x st.dma) :
    Tidy cfg x (resetQuiesced cfg env st).st.dma := by
  unfold resetQuiesced
  cases hd : dropDma cfg st.dma with
  | err e => exact h
  | fault f => exact h
  | ok y =>
    obtain ⟨d', ev⟩ := y
    dsimp only
    have h1 : Tidy cfg x d' := by
      rcases dropDma_step hd with ⟨hn, rfl, _⟩ | ⟨c, hc, rfl, _⟩
      · rw [← hn]; exact h
      · exact Tidy.quiet (hc ▸ h : Tidy cfg x (some c)) (by simp)
    obtain ⟨e1, e2⟩ := deviceReset_tables cfg env { st with dma := d' } .lostConn
    dsimp only at e1 e2
    cases Irq.reset cfg.irq (deviceReset cfg env { st with dma := d' } .lostConn).1.irqs with
    | err e => dsimp only; rw [e1]; exact h1
    | fault f => dsimp only; rw [e1]; exact h1
    | ok y => dsimp only; rw [e1]; exact h1

theorem call_tidy {cfg : Cfg} (hi : cfg.irq.Ok) (ht : TableOk cfg.tbl) {x : Nat × Nat} {st : St}
    (hr : Reached cfg (some x) st.dma st.irqs) (hk : KeptGood Plain st) (htd : Tidy cfg x st.dma) (op : Op) (ho : op.Fair)
    (hos : op.OSOk) (hg : op.Good Plain) (hno : (call cfg st op).res.isFault = false) :
    Tidy cfg x (call cfg st op).st.dma := by
  have hsub : ∀ m, op.subject st = some m → m.hdr.cmd = 2 → leAt m.body 16 8 + leAt m.body 24 8 < U64 := by
    intro m hm hc
    cases op with
    | run env i =>
      cases i with
      | req h body fds => cases hm; exact hg.2 h body fds rfl hc
      | _ => cases hm
    | quiesced env e =>
      unfold Op.subject at hm
      cases hp : st.pending with
      | msg m' => rw [hp] at hm; cases hm; exact (hk m hp).2 _ _ _ rfl hc
      | _ => rw [hp] at hm; cases hm
    | _ => cases hm
  have hT := call_turn hi ht hr (fun m hm => (hk m hm).1.1) op ho hno
  generalize call cfg st op = o at hT
  cases hT with
  | idle hs _ _ => rw [hs.dma]; exact htd
  | bad hs _ _ => rw [hs.dma]; exact htd
  | refused m e hs _ _ _ _ _ => rw [hs.dma]; exact htd
  | executed env q m l hf h1 h2 h3 h4 h5 h6 h7 h8 =>
    rw [h4.dma]
    cases exec_touch cfg env { st with quiesced := q } m with
    | none h1 _ _ _ => rw [h1]; exact htd
    | irq _ h1 _ _ _ => rw [h1]; exact htd
    | map c hcmd hc h _ _ _ =>
      rw [h]
      exact Tidy.step (hc ▸ htd : Tidy cfg x (some c)) (hos env h2) (mapReq_bounded ..) (hsub m h1 hcmd)
    | dma c op' hc hm _ h _ _ _ => rw [h]; exact Tidy.quiet (hc ▸ htd : Tidy cfg x (some c)) hm
  | reset env q h1 h2 h3 =>
    rw [h3.dma]
    exact Tidy.reset env (st := { st with quiesced := q }) htd
  | config f h1 h2 h3 => rw [h2]; exact htd
  | mark sgl c c' h1 h2 h3 h4 h5 =>
    rw [h4]
    have : (Dma.step cfg.dma c (.mark sgl)).1 = c' := by simp only [Dma.step, h3]
    rw [← this]
    exact Tidy.quiet (h2 ▸ htd : Tidy cfg x (some c)) (by simp)

/-- A conversation: set up with a DMA controller for `x.1` regions of at most `x.2` bytes, then calls. -/
structure Talk (cfg : Cfg) (good : Wire.In → Prop) (mig : Bool) (x : Nat × Nat) (pci : Pci.Pci) (ops : List Op) : Prop where
  irq : cfg.irq.Ok
  tbl : TableOk cfg.tbl
  each : ∀ op ∈ ops, op.Fair ∧ op.OSOk ∧ op.Good good
  ends : Completes cfg (init cfg mig (some x) pci) ops

theorem run_tidy {cfg : Cfg} (hi : cfg.irq.Ok) (ht : TableOk cfg.tbl) {x : Nat × Nat} (ops : List Op) {st : St}
    (hr : Reached cfg (some x) st.dma st.irqs) (hk : KeptGood Plain st) (htd : Tidy cfg x st.dma)
    (ho : ∀ op ∈ ops, op.Fair ∧ op.OSOk ∧ op.Good Plain) (hno : Completes cfg st ops) :
    Tidy cfg x (run cfg st ops).1.dma := by
  induction ops generalizing st with
  | nil => exact htd
  | cons op ops ih =>
    obtain ⟨o1, o2, o3⟩ := ho op (List.mem_cons_self ..)
    have h1 := call_tidy hi ht hr hk htd op o1 o2 o3 hno.1
    have hrun : (run cfg st (op :: ops)).1 = (run cfg (call cfg st op).st ops).1 := by
      conv_lhs => unfold run
      dsimp only
      rw [hno.1]
      rfl
    rw [hrun]
    exact ih ((stable_reached cfg (some x)).kept.call hr op o2) ((closed_true cfg Plain).call st hk op o3).2 h1
      (fun op' h => ho op' (List.mem_cons_of_mem _ h)) hno.2

theorem Talk.tidy {cfg : Cfg} {mig : Bool} {x : Nat × Nat} {pci : Pci.Pci} {ops : List Op}
    (h : Talk cfg Plain mig x pci ops) : Tidy cfg x (run cfg (init cfg mig (some x) pci) ops).1.dma :=
  run_tidy h.irq h.tbl ops ⟨⟨[], (fun _ h => by cases h), rfl⟩, [], rfl⟩ (fun _ h => by cases h)
    ⟨[], (fun _ h => by cases h), rfl⟩ h.each h.ends

theorem Talk.replied {cfg : Cfg} {mig : Bool} {x : Nat × Nat} {pci : Pci.Pci} {ops : List Op}
    (h : Talk cfg Plain mig x pci ops) : Talk cfg Replied mig x pci ops := by
  refine ⟨h.irq, h.tbl, fun op hop => ?_, h.ends⟩
  obtain ⟨h1, h2, h3⟩ := h.each op hop
  refine ⟨h1, h2, ?_⟩
  cases op <;> first | exact h3.1 | trivial

theorem Talk.ledger {cfg : Cfg} {mig : Bool} {x : Nat × Nat} {pci : Pci.Pci} {ops : List Op}
    (h : Talk cfg Replied mig x pci ops) :
    ∃ c, (run cfg (init cfg mig (some x) pci) ops).1.dma = some c ∧ Dma.Inv2 c ∧
      Represents c (account cfg Tbl.empty (init cfg mig (some x) pci) ops) := by
  obtain ⟨c, h1, h2⟩ := C71_ledger h.irq h.tbl mig x pci ops h.each h.ends
  obtain ⟨⟨dops, g1, g2⟩, _⟩ := run_reached cfg mig (some x) pci ops (fun op ho => (h.each op ho).2.1)
  rw [h1] at g2
  cases g2
  exact ⟨_, h1, Dma.inv2_run _ _ _ dops (fun op h => (g1 op h).symm), h2⟩

/-! ## The theorems -/

/-- C72. -/
theorem C72_unmap {cfg : Cfg} {mig : Bool} {x : Nat × Nat} {pci : Pci.Pci} {ops : List Op}
    (h : Talk cfg Replied mig x pci ops) {env : Env} {m : Msg}
    (hn : Next cfg env (run cfg (init cfg mig (some x) pci) ops).1 m) (hcmd : m.hdr.cmd = 3)
    (h1 : 24 ≤ m.body.length) (h2 : leAt m.body 4 4 = 1 → 40 ≤ m.body.length) :
    let t := account cfg Tbl.empty (init cfg mig (some x) pci) ops
    let st := (run cfg (init cfg mig (some x) pci) ops).1
    let o := call cfg st (.run env (.req m.hdr m.body m.fds))
    (BadUnmap m.body → Answered m EINVAL [] o ∧ o.st.dma = st.dma) ∧
    (¬ BadUnmap m.body → leAt m.body 4 4 = 0 →
      ((t (leAt m.body 8 8) (leAt m.body 16 8)).isSome → Answered m 0 (m.body.take 24) o ∧
        ∃ c', o.st.dma = some c' ∧ Represents c' (t.delete (leAt m.body 8 8) (leAt m.body 16 8))) ∧
      (t (leAt m.body 8 8) (leAt m.body 16 8) = none → Answered m ENOENT [] o ∧ o.st.dma = st.dma)) ∧
    (¬ BadUnmap m.body → leAt m.body 4 4 = 2 → Answered m 0 (m.body.take 24) o ∧
      ∃ c', o.st.dma = some c' ∧ Represents c' Tbl.empty) := by
  intro t st o
  obtain ⟨c, hd, hi, hr⟩ := h.ledger
  change st.dma = some c at hd
  change Represents c t at hr
  change Next cfg env st m at hn
  have hd' : (ready cfg st m).dma = some c := hd
  have hx := exec_unmap (cfg := cfg) (env := env) hd' hcmd
  have ha : env.alloc = true := hn.fair.alloc
  have fin : ∀ {r : Res Unit} {l : List Byte} {d : Option Dma.Ctl} {e : Nat},
      (dmaUnmap cfg env (ready cfg st m) c m.body m.fds).res = r → r.isFault = false → replyErr r % U32 = e →
      (dmaUnmap cfg env (ready cfg st m) c m.body m.fds).out = .bytes l →
      (dmaUnmap cfg env (ready cfg st m) c m.body m.fds).st.dma = d → Answered m e l o ∧ o.st.dma = d := by
    intro r l d e e1 e2 e3 e4 e5
    obtain ⟨l', hs⟩ := hn.served h.tbl (by rw [hx, e1]; exact e2)
    have ho := hs.out
    rw [hx, e4] at ho
    cases ho
    have hrep := hs.reply
    rw [hx, e1, e3] at hrep
    exact ⟨hrep, by rw [hs.tables.dma, hx]; exact e5⟩
  refine ⟨fun hb => ?_, fun hb hf => ⟨fun hs => ?_, fun hs => ?_⟩, fun hb hf => ?_⟩
  · obtain ⟨e1, e2, e3⟩ := unmap_bad (cfg := cfg) (env := env) (st := ready cfg st m) (c := c) h1 h2 hb
    exact fin e1 rfl rfl e2 (by rw [e3]; rfl)
  · have hk : unmapKind env m.body = .plain := by unfold unmapKind; rw [hf]; rfl
    obtain ⟨v1, _, _⟩ := unmap_valid (cfg := cfg) (env := env) (st := ready cfg st m) (c := c) h1 h2 hb
    obtain ⟨u1, _⟩ := C02_at hi hr cfg.dma.hasUnreg (leAt m.body 8 8) (leAt m.body 16 8) none
    obtain ⟨w1, _⟩ := unmap_noted (cfg := cfg) hr hi true (leAt m.body 8 8) (leAt m.body 16 8) .plain
    have hh : Dma.handleUnmap env.alloc cfg.dma.hasUnreg c (leAt m.body 8 8) (leAt m.body 16 8) (unmapKind env m.body) =
        Dma.unmapTail cfg.dma.hasUnreg c (leAt m.body 8 8) (leAt m.body 16 8) none := by rw [hk, ha]; rfl
    have hh' : Dma.handleUnmap true cfg.dma.hasUnreg c (leAt m.body 8 8) (leAt m.body 16 8) .plain =
        Dma.unmapTail cfg.dma.hasUnreg c (leAt m.body 8 8) (leAt m.body 16 8) none := rfl
    rw [hh] at v1
    rw [hh'] at w1
    have u1 := u1 hs
    generalize Dma.unmapTail cfg.dma.hasUnreg c (leAt m.body 8 8) (leAt m.body 16 8) none = y at u1 v1 w1
    obtain ⟨c', r, ev⟩ := y
    dsimp only at u1
    subst u1
    obtain ⟨e1, e2, e3⟩ := v1 c' ev rfl
    obtain ⟨f1, f2⟩ := fin e1 rfl rfl e2 rfl
    exact ⟨f1, c', by rw [f2, e3], by simpa using w1 none rfl⟩
  · have hk : unmapKind env m.body = .plain := by unfold unmapKind; rw [hf]; rfl
    obtain ⟨_, _, v1⟩ := unmap_valid (cfg := cfg) (env := env) (st := ready cfg st m) (c := c) h1 h2 hb
    obtain ⟨_, u1⟩ := C02_at hi hr cfg.dma.hasUnreg (leAt m.body 8 8) (leAt m.body 16 8) none
    have hh : Dma.handleUnmap env.alloc cfg.dma.hasUnreg c (leAt m.body 8 8) (leAt m.body 16 8) (unmapKind env m.body) =
        Dma.unmapTail cfg.dma.hasUnreg c (leAt m.body 8 8) (leAt m.body 16 8) none := by rw [hk, ha]; rfl
    rw [hh] at v1
    obtain ⟨u1, u2⟩ := u1 hs
    generalize Dma.unmapTail cfg.dma.hasUnreg c (leAt m.body 8 8) (leAt m.body 16 8) none = y at u1 u2 v1
    obtain ⟨c', r, ev⟩ := y
    dsimp only at u1 u2
    subst u1 u2
    obtain ⟨e1, e2, e3⟩ := v1 c' _ ev rfl
    exact fin e1 rfl rfl e2 (by rw [e3, hd])
  · have hk : unmapKind env m.body = .all := by unfold unmapKind; rw [hf]; rfl
    obtain ⟨v1, _, _⟩ := unmap_valid (cfg := cfg) (env := env) (st := ready cfg st m) (c := c) h1 h2 hb
    obtain ⟨w1, _⟩ := unmap_noted (cfg := cfg) hr hi true (leAt m.body 8 8) (leAt m.body 16 8) .all
    rw [hk, ha] at v1
    have hok : ∃ c' ev, Dma.handleUnmap true cfg.dma.hasUnreg c (leAt m.body 8 8) (leAt m.body 16 8) .all =
        (c', .ok none, ev) := by
      unfold Dma.handleUnmap
      rw [if_neg (by simp)]
      simp only [Dma.removeAll, dropAll_ok _ _ hi.consistent]
      exact ⟨_, _, rfl⟩
    obtain ⟨c', ev, hok⟩ := hok
    rw [hok] at w1
    obtain ⟨e1, e2, e3⟩ := v1 c' ev hok
    obtain ⟨f1, f2⟩ := fin e1 rfl rfl e2 rfl
    exact ⟨f1, c', by rw [f2, e3], by simpa using w1 none rfl⟩

/-- C72, unmap with dirty bitmap: for a file-backed region that is logged at the page size the client asks for, the reply
carries the pages written since the last report, and the region is gone. -/
theorem C72_unmap_dirty {cfg : Cfg} {mig : Bool} {x : Nat × Nat} {pci : Pci.Pci} {ops : List Op}
    (h : Talk cfg Plain mig x pci ops) (hx2 : x.2 ≤ 2 ^ 62) {env : Env} {m : Msg}
    (hn : Next cfg env (run cfg (init cfg mig (some x) pci) ops).1 m) (hcmd : m.hdr.cmd = 3)
    (h1 : 40 ≤ m.body.length) (hf : leAt m.body 4 4 = 1) (hb : ¬ BadUnmap m.body)
    (hhint : env.hint < x.1) (hmal : ∀ n, (env.malloc n).length = n) {c : Dma.Ctl}
    (hd : (run cfg (init cfg mig (some x) pci) ops).1.dma = some c) {k i : Nat} (hk : c.dirtyPgsize = 2 ^ k)
    (hpg : leAt m.body 24 8 = 2 ^ k) {r : Dma.Region} (hr : c.regions[i]? = some r) (hfd : r.fd ≠ none)
    (ha : leAt m.body 8 8 = r.info.base) (hs : leAt m.body 16 8 = r.info.len)
    (hbs : getBitmapSize r.info.len (2 ^ k) = .ok (leAt m.body 32 8)) :
    let t := account cfg Tbl.empty (init cfg mig (some x) pci) ops
    let st := (run cfg (init cfg mig (some x) pci) ops).1
    let o := call cfg st (.run env (.req m.hdr m.body m.fds))
    ∃ bm, Answered m 0 (m.body.take 40 ++ bm) o ∧ bm.length = leAt m.body 32 8 ∧
      (∀ p, Dma.bit bm p = true ↔ Dma.DirtyPage c i p) ∧
      ∃ c', o.st.dma = some c' ∧ Represents c' (t.delete r.info.base r.info.len) := by
  intro t st o
  obtain ⟨c0, hd0, hi, hrep⟩ := h.replied.ledger
  rw [hd] at hd0
  cases hd0
  obtain ⟨dops, g1, g2⟩ := h.tidy
  rw [hd] at g2
  have hc : c = (Dma.run cfg.dma (Dma.create x.1 x.2) dops).1 := Option.some.inj g2
  have hg : Dma.Good c := by rw [hc]; exact Dma.good_run _ _ _ dops hx2 (fun op ho => (g1 op ho).2)
  have hmax : c.maxRegions = x.1 := by rw [hc]; exact (Dma.max_run cfg.dma dops (Dma.create x.1 x.2)).1
  obtain ⟨c1, out, q1, q2, _, _, _, q6, q7, _⟩ := Dma.query_same (buf := env.malloc (leAt m.body 32 8)) (hint := env.hint)
    hg hk (by rw [hmax]; exact hhint) hr hfd (by rw [hmal]; exact hbs)
  rw [hmal] at q1 q6
  have hd' : (ready cfg st m).dma = some c := hd
  have hex := exec_unmap (cfg := cfg) (env := env) hd' hcmd
  have hk' : unmapKind env m.body = .getDirty (2 ^ k) (leAt m.body 32 8) (env.malloc (leAt m.body 32 8)) env.hint := by
    unfold unmapKind; rw [hf, hpg]; rfl
  have hi1 : Dma.Inv2 c1 := by
    have := Dma.inv2_step cfg.dma c (.query env.hint r.info.base r.info.len (2 ^ k) (leAt m.body 32 8)
      (env.malloc (leAt m.body 32 8))) hi trivial trivial
    simp only [Dma.step, q1] at this
    exact this
  have hrep1 : Represents c1 t := hrep.geoms q2
  have hsome : (t r.info.base r.info.len).isSome := by
    change Represents c t at hrep
    rw [(hrep.1 r.info.base r.info.len ⟨r.info.prot, r.offset, r.fd⟩).mpr
      ⟨r, List.mem_of_getElem? hr, rfl, rfl, rfl, rfl, rfl⟩]
    rfl
  obtain ⟨u1, _⟩ := C02_at hi1 hrep1 cfg.dma.hasUnreg r.info.base r.info.len (some out)
  have u1 := u1 hsome
  have hh : Dma.handleUnmap env.alloc cfg.dma.hasUnreg c (leAt m.body 8 8) (leAt m.body 16 8) (unmapKind env m.body) =
      Dma.unmapTail cfg.dma.hasUnreg c1 r.info.base r.info.len (some out) := by
    rw [hk', hn.fair.alloc, ha, hs]
    unfold Dma.handleUnmap
    rw [if_neg (by simp)]
    dsimp only
    rw [q1]
  obtain ⟨w1, _⟩ := unmap_noted (cfg := cfg) hrep hi env.alloc (leAt m.body 8 8) (leAt m.body 16 8) (unmapKind env m.body)
  obtain ⟨_, v1, _⟩ := unmap_valid (cfg := cfg) (env := env) (st := ready cfg st m) (c := c) (m := m) (by omega)
    (fun _ => h1) hb
  rw [hh] at v1 w1
  generalize Dma.unmapTail cfg.dma.hasUnreg c1 r.info.base r.info.len (some out) = y at u1 v1 w1
  obtain ⟨c', rr, ev⟩ := y
  dsimp only at u1
  subst u1
  obtain ⟨e1, e2, e3⟩ := v1 c' out ev rfl
  obtain ⟨l', hsv⟩ := hn.served h.tbl (by rw [hex, e1]; rfl)
  have ho := hsv.out
  rw [hex, e2] at ho
  cases ho
  have hre := hsv.reply
  rw [hex, e1] at hre
  refine ⟨out, hre, q6, q7, c', by rw [hsv.tables.dma, hex, e3], ?_⟩
  have := w1 (some out) rfl
  rw [hk', if_neg (by simp), ha, hs] at this
  exact this

/-- C72, map: the decision of C03, as seen by the client. -/
theorem C72_map {cfg : Cfg} {mig : Bool} {x : Nat × Nat} {pci : Pci.Pci} {ops : List Op}
    (h : Talk cfg Plain mig x pci ops) {env : Env} {m : Msg}
    (hn : Next cfg env (run cfg (init cfg mig (some x) pci) ops).1 m) (hcmd : m.hdr.cmd = 2)
    (hw : leAt m.body 16 8 + leAt m.body 24 8 < U64) {c : Dma.Ctl}
    (hd : (run cfg (init cfg mig (some x) pci) ops).1.dma = some c) :
    let t := account cfg Tbl.empty (init cfg mig (some x) pci) ops
    let o := call cfg (run cfg (init cfg mig (some x) pci) ops).1 (.run env (.req m.hdr m.body m.fds))
    (m.body.length < 32 ∨ leAt m.body 0 4 < 32 → Answered m EINVAL [] o ∧ o.st.dma = some c) ∧
    (¬ (m.body.length < 32 ∨ leAt m.body 0 4 < 32) →
      match Dma.mapDecision env.os c ⟨leAt m.body 4 4, leAt m.body 8 8, leAt m.body 16 8, leAt m.body 24 8, m.fds⟩ with
      | .refused e => Answered m e [] o ∧ o.st.dma = some c
      | .repeated => Answered m 0 [] o ∧ o.st.dma = some c
      | .accepted _ => Answered m 0 [] o ∧
          ∃ c', o.st.dma = some c' ∧ Represents c' (t.insert (leAt m.body 16 8) (leAt m.body 24 8) (wants m))) := by
  intro t o
  obtain ⟨c0, hd0, hi, hrep⟩ := h.replied.ledger
  rw [hd] at hd0
  cases hd0
  obtain ⟨dops, g1, g2⟩ := h.tidy
  rw [hd] at g2
  have hc : c = (Dma.run cfg.dma (Dma.create x.1 x.2) dops).1 := Option.some.inj g2
  generalize hst : (run cfg (init cfg mig (some x) pci) ops).1 = st at hd hn
  have ho : o = call cfg st (.run env (.req m.hdr m.body m.fds)) := by rw [← hst]
  have hd' : (ready cfg st m).dma = some c := hd
  have hex : exec cfg env (ready cfg st m) m = dmaMap cfg env (ready cfg st m) c m.body m.fds := by
    unfold exec
    exact (if_pos hcmd).trans (by rw [hd'])
  have hne : m.body ≠ [] := careful_body hn.real (by rw [hcmd]; decide)
  have fin : ∀ {r : Res Unit} {d : Option Dma.Ctl} {e : Nat},
      (dmaMap cfg env (ready cfg st m) c m.body m.fds).res = r → r.isFault = false → replyErr r % U32 = e →
      (dmaMap cfg env (ready cfg st m) c m.body m.fds).out = .bytes [] →
      (dmaMap cfg env (ready cfg st m) c m.body m.fds).st.dma = d → Answered m e [] o ∧ o.st.dma = d := by
    intro r d e e1 e2 e3 e4 e5
    obtain ⟨l', hs⟩ := hn.served h.tbl (by rw [hex, e1]; exact e2)
    have ho' := hs.out
    rw [hex, e4] at ho'
    cases ho'
    have hrep := hs.reply
    rw [hex, e1, e3] at hrep
    rw [ho]
    exact ⟨hrep, by rw [hs.tables.dma, hex]; exact e5⟩
  refine ⟨fun hs => ?_, fun hs => ?_⟩
  · unfold dmaMap at fin
    rw [if_neg hne, if_pos hs] at fin
    exact fin rfl rfl rfl rfl hd'
  · unfold dmaMap at fin
    rw [if_neg hne, if_neg hs] at fin
    dsimp only at fin
    have hq := mapReq_bounded m.body m.fds
    have hdec := Dma.C03_map_decision cfg.dma x.1 x.2 dops g1 env.os (mapReq m.body m.fds) hn.os hq hw
    rw [← hc] at hdec
    obtain ⟨w1, _⟩ := map_noted (cfg := cfg) hrep hi env.os hn.os (mapReq m.body m.fds) hq
    have herr : ∀ e, (Dma.handleMap env.os cfg.dma.hasReg c (mapReq m.body m.fds)).res = .err e → Errno e :=
      fun e => handleMap_errno hn.fair.mmap
    change match Dma.mapDecision env.os c (mapReq m.body m.fds) with
      | .refused e => Answered m e [] o ∧ o.st.dma = some c
      | .repeated => Answered m 0 [] o ∧ o.st.dma = some c
      | .accepted _ => Answered m 0 [] o ∧
          ∃ c', o.st.dma = some c' ∧ Represents c' (t.insert (leAt m.body 16 8) (leAt m.body 24 8) (wants m))
    change ∀ {r : Res Unit} {d : Option Dma.Ctl} {e : Nat}, (Dma.handleMap env.os cfg.dma.hasReg c (mapReq m.body m.fds)).res = r →
      r.isFault = false → replyErr r % U32 = e → Wire.Body.bytes [] = .bytes [] →
      some (Dma.handleMap env.os cfg.dma.hasReg c (mapReq m.body m.fds)).ctl = d → Answered m e [] o ∧ o.st.dma = d at fin
    dsimp only at hdec
    revert hdec
    cases hm : Dma.mapDecision env.os c (mapReq m.body m.fds) with
    | refused e =>
      rintro ⟨f1, f2⟩
      exact fin f1 rfl (Nat.mod_eq_of_lt (herr e f1).2) rfl (by rw [f2])
    | repeated =>
      rintro ⟨f1, f2⟩
      exact fin f1 rfl rfl rfl (by rw [f2])
    | accepted b =>
      rintro ⟨f1, r, f2, f3, f4, f5, f6, f7, _⟩
      obtain ⟨k1, k2⟩ := fin f1 rfl rfl rfl rfl
      refine ⟨k1, _, k2, ?_⟩
      have := w1 f1
      have hnone : t (leAt m.body 16 8) (leAt m.body 24 8) = none := by
        cases ht : t (leAt m.body 16 8) (leAt m.body 24 8) with
        | none => rfl
        | some v =>
          obtain ⟨r', a1, a2, a3, _⟩ := (hrep.1 _ _ _).mp ht
          obtain ⟨i, a4⟩ := List.getElem?_of_mem a1
          have a5 : i < c.regions.length := (List.getElem?_eq_some_iff.mp a4).1
          have := this.2 i c.regions.length r' r (by rw [f2, List.getElem?_append_left a5]; exact a4) (by rw [f2]; simp)
            (a2.trans f3.symm) (a3.trans f4.symm)
          omega
      rw [if_neg (by change ¬ (t (leAt m.body 16 8) (leAt m.body 24 8)).isSome = true; rw [hnone]; simp)] at this
      exact this

section
open Demo

theorem dealings_talk : Talk cfg Replied true (8, 2 ^ 40) pci dealings :=
  ⟨irq_ok, table_ok, dealings_ok, ⟨by decide +kernel, by decide +kernel, by decide +kernel, by decide +kernel,
    by decide +kernel, by decide +kernel, trivial⟩⟩

/-- Removing the second region of `dealings`; then nothing is mapped.  Removing the first, already removed, is refused. -/
example :
    let st := (run cfg (init cfg true (some (8, 2 ^ 40)) pci) dealings).1
    let m1 : Msg := ⟨hdr 7 3 0 24, unmapBody 0x2000000, []⟩
    let m2 : Msg := ⟨hdr 7 3 0 24, unmapBody 0x1000000, []⟩
    Answered m1 0 (unmapBody 0x2000000) (call cfg st (.run env (.req m1.hdr m1.body m1.fds))) ∧
      Answered m2 ENOENT [] (call cfg st (.run env (.req m2.hdr m2.body m2.fds))) := by
  intro st m1 m2
  have hn : ∀ a, Next cfg env st ⟨hdr 7 3 0 24, unmapBody a, []⟩ := fun a =>
    next_req env_fair rfl rfl (by exact ⟨by decide +kernel, by decide +kernel⟩) (by decide +kernel) 7 3 (unmapBody a) []
      (by decide) (by decide) (by simp [unmapBody, enc]) (by simp [unmapBody, enc]) (by decide)
  exact ⟨(((C72_unmap dealings_talk (hn 0x2000000) rfl (by decide) (by decide)).2.1 (by unfold BadUnmap; decide) (by decide)).1
      (by decide +kernel)).1,
    (((C72_unmap dealings_talk (hn 0x1000000) rfl (by decide) (by decide)).2.1 (by unfold BadUnmap; decide) (by decide)).2
      (by decide +kernel)).1⟩

/-- Unmap with a bitmap of `n` bytes for pages of 4 KiB. -/
def unmapDirty (addr size n : Nat) : List Byte :=
  enc 4 (40 + n) ++ enc 4 1 ++ enc 8 addr ++ enc 8 size ++ enc 8 0x1000 ++ enc 8 n

/-- A region of 2 MiB is mapped, logging starts, the device writes the pages 3 and 4. -/
def written : List Op :=
  [.attach (.ok { maxFds := 8, maxXfer := 1048576, pgsize := 4096 }), .run env (req 1 2 0 (mapBody 0x1000000) [5]),
   .run env (req 2 16 0 logBody []), .mark [⟨0x1000000, 0, 0x1000, 0x3800, true⟩]]

theorem written_talk : Talk cfg Plain true (8, 2 ^ 40) pci written := by
  refine ⟨irq_ok, table_ok, ?_, ⟨by decide +kernel, by decide +kernel, by decide +kernel, by decide +kernel, trivial⟩⟩
  have hos : ∀ i, (Op.run env i).OSOk := fun i e' he => by cases he; exact env_ok rfl
  have h1 : Replied (req 1 2 0 (mapBody 0x1000000) [5]) :=
    replied_req _ _ _ _ (by decide) (by decide) (by decide) (by decide) (by decide)
  have h2 : Replied (req 2 16 0 logBody []) :=
    replied_req _ _ _ _ (by decide) (by decide) (by decide) (by decide) (by decide)
  intro op hop
  simp only [written, List.mem_cons, List.not_mem_nil, or_false] at hop
  rcases hop with rfl | rfl | rfl | rfl
  · exact ⟨trivial, (fun e he => by cases he), trivial⟩
  · exact ⟨⟨env_fair, h1.1⟩, hos _, h1, fun h b f he _ => by cases he; decide⟩
  · exact ⟨⟨env_fair, h2.1⟩, hos _, h2, fun h b f he hc => by cases he; cases hc⟩
  · exact ⟨trivial, (fun e he => by cases he), trivial⟩

theorem afterWrites_next (id cmd : Nat) (body : List Byte) (fds : List Fd) (h1 : id < 65536) (h2 : cmd < 65536)
    (h5 : body.length ≤ 1048576 + 16) (h6 : body ≠ []) (h7 : fds.length ≤ 1024) :
    Next cfg env (run cfg (init cfg true (some (8, 2 ^ 40)) pci) written).1 ⟨hdr id cmd 0 body.length, body, fds⟩ :=
  next_req env_fair rfl rfl ⟨by decide +kernel, by decide +kernel⟩ (by decide +kernel) _ _ _ _ h1 h2 h5 h6 h7

def writtenRegion : Dma.Region :=
  { info := { base := 0x1000000, len := 0x200000, vaddr := 0x7f0000000000, mapBase := 0x7f0000000000,
              mapLen := 0x200000, pageSize := 4096, prot := ⟨true, true⟩ }
    fd := some 5, offset := 0, dirty := some (24#8 :: List.replicate 63 0#8) }

theorem afterWrites_dma :
    ∃ c, (run cfg (init cfg true (some (8, 2 ^ 40)) pci) written).1.dma = some c ∧ c.dirtyPgsize = 2 ^ 12 ∧ c.regions = [writtenRegion] ∧ c.maxRegions = 8 ∧
      c.maxSize = 2 ^ 40 := by
  cases hd : (run cfg (init cfg true (some (8, 2 ^ 40)) pci) written).1.dma with
  | none => exact absurd hd (by decide +kernel)
  | some c =>
  have hc : (run cfg (init cfg true (some (8, 2 ^ 40)) pci) written).1.dma.map (fun c => (c.dirtyPgsize, c.regions, c.maxRegions, c.maxSize)) =
    some (c.dirtyPgsize, c.regions, c.maxRegions, c.maxSize) := by rw [hd]; rfl
  have hv : (run cfg (init cfg true (some (8, 2 ^ 40)) pci) written).1.dma.map (fun c => (c.dirtyPgsize, c.regions, c.maxRegions, c.maxSize)) =
    some (2 ^ 12, [writtenRegion], 8, 2 ^ 40) := by decide +kernel
  rw [hv] at hc
  simp only [Option.some.injEq, Prod.mk.injEq] at hc
  exact ⟨c, rfl, hc.1.symm, hc.2.1.symm, hc.2.2.1.symm, hc.2.2.2.symm⟩

theorem bit_written (p : Nat) : Dma.bit (24#8 :: List.replicate 63 0#8) p = true ↔ p = 3 ∨ p = 4 := by
  unfold Dma.bit
  by_cases hp : p < 8
  · interval_cases p <;> decide
  · obtain ⟨q, hq⟩ : ∃ q, p / 8 = q + 1 := ⟨p / 8 - 1, by omega⟩
    have h0 : (List.replicate 63 0#8 : List Byte).getD q 0#8 = 0#8 := by
      rw [List.getD_eq_getElem?_getD, List.getElem?_replicate]; split <;> rfl
    rw [hq, List.getD_cons_succ, h0]
    simp
    omega

/-- The reply to the unmap request names exactly these two pages. -/
example :
    let m : Msg := ⟨hdr 7 3 0 40, unmapDirty 0x1000000 0x200000 64, []⟩
    ∃ bm, Answered m 0 (unmapDirty 0x1000000 0x200000 64 ++ bm) (call cfg (run cfg (init cfg true (some (8, 2 ^ 40)) pci) written).1 (.run env (.req m.hdr m.body m.fds))) ∧
      bm.length = 64 ∧ ∀ p, Dma.bit bm p = true ↔ p = 3 ∨ p = 4 := by
  intro m
  have hn : Next cfg env (run cfg (init cfg true (some (8, 2 ^ 40)) pci) written).1 m :=
    afterWrites_next 7 3 (unmapDirty 0x1000000 0x200000 64) [] (by decide) (by decide) (by decide) (by decide) (by decide)
  obtain ⟨c, hd, c1, c2, _⟩ := afterWrites_dma
  obtain ⟨bm, b1, b2, b3, _⟩ := C72_unmap_dirty written_talk (by norm_num) hn rfl (by decide) (by decide)
    (by unfold BadUnmap; decide) (by decide) (fun n => by simp [env]) hd (i := 0) c1 (by decide) (by rw [c2]; rfl)
    (by decide) (by decide) (by decide) (by decide)
  refine ⟨bm, b1, b2, fun p => ?_⟩
  rw [b3, ← bit_written]
  unfold Dma.DirtyPage
  rw [c2]
  constructor
  · rintro ⟨r, b, h1, h2, h3⟩
    cases h1
    cases h2
    exact h3
  · exact fun h => ⟨writtenRegion, _, rfl, rfl, h⟩

theorem mapBody_reads (a : Nat) (ha : a < U64) : leAt (mapBody a) 0 4 = 32 ∧ leAt (mapBody a) 4 4 = 3 ∧
    leAt (mapBody a) 8 8 = 0 ∧ leAt (mapBody a) 16 8 = a ∧ leAt (mapBody a) 24 8 = 0x200000 := by
  refine ⟨by simp [mapBody, enc, leAt], by simp [mapBody, enc, leAt], by simp [mapBody, enc, leAt],
    leAt_field (enc 4 32 ++ enc 4 3 ++ enc 8 0) _ _ _ _ (by simp [enc_length]) ha, by simp [mapBody, enc, leAt]⟩

theorem overlapping_decision {c : Dma.Ctl} (h2 : c.regions = [writtenRegion]) (h4 : c.maxSize = 2 ^ 40) {a : Nat}
    (hr : 0x1000000 < a) (h : a < 0x1200000) :
    Dma.mapDecision env.os c ⟨3, 0, a, 0x200000, [6]⟩ = .refused EINVAL := by
  unfold Dma.mapDecision
  rw [if_neg (show ¬ 3 ≥ 4 by decide), if_neg (by rw [h4]; show ¬ 0x200000 > 2 ^ 40; decide), if_neg, if_pos]
  · rw [h2]
    exact ⟨writtenRegion, by simp, .inl (by unfold Dma.Region.Covers writtenRegion; dsimp only; omega)⟩
  · rw [h2]
    rintro ⟨r, hm, he, _⟩
    rw [List.mem_singleton] at hm
    subst hm
    change 0x1000000 = a at he
    omega

theorem fresh_decision {c : Dma.Ctl} (h1 : c.dirtyPgsize = 2 ^ 12) (h2 : c.regions = [writtenRegion])
    (h3 : c.maxRegions = 8) (h4 : c.maxSize = 2 ^ 40) {a : Nat} (h : 0x1200000 ≤ a) :
    Dma.mapDecision env.os c ⟨3, 0, a, 0x200000, [6]⟩ = .accepted (some 0x7f0000000000) := by
  unfold Dma.mapDecision
  rw [if_neg (show ¬ 3 ≥ 4 by decide), if_neg (by rw [h4]; show ¬ 0x200000 > 2 ^ 40; decide), if_neg, if_neg, if_neg (by rw [h2, h3]; decide)]
  · rw [h1]
    simp [env, os, Dma.mapPage, U64]
  · rw [h2]
    rintro ⟨r, hm, hx⟩
    rw [List.mem_singleton] at hm
    subst hm
    unfold Dma.Overlaps Dma.Region.Covers writtenRegion at hx
    dsimp only at hx
    omega
  · rw [h2]
    rintro ⟨r, hm, he, _⟩
    rw [List.mem_singleton] at hm
    subst hm
    change 0x1000000 = a at he
    omega

/-- A request that overlaps a mapped region is refused, one for fresh addresses accepted. -/
example (a : Nat) (ha : a + 0x200000 < U64) (hr : 0x1000000 < a) :
    let m : Msg := ⟨hdr 7 2 0 32, mapBody a, [6]⟩
    let o := call cfg (run cfg (init cfg true (some (8, 2 ^ 40)) pci) written).1 (.run env (.req m.hdr m.body m.fds))
    (a < 0x1200000 → Answered m EINVAL [] o) ∧ (0x1200000 ≤ a → Answered m 0 [] o) := by
  intro m
  obtain ⟨r0, r1, r2, r3, r4⟩ := mapBody_reads a (by omega)
  have hl : (mapBody a).length = 32 := by simp [mapBody, enc]
  have hn : Next cfg env (run cfg (init cfg true (some (8, 2 ^ 40)) pci) written).1 m := by
    have := afterWrites_next 7 2 (mapBody a) [6] (by decide) (by decide) (by omega) (by intro h; rw [h] at hl; cases hl)
      (by decide)
    rw [hl] at this
    exact this
  have hb : m.body = mapBody a := rfl
  rw [← hb] at r0 r1 r2 r3 r4 hl
  have hf : m.fds = [6] := rfl
  have hc : m.hdr.cmd = 2 := rfl
  clear_value m
  intro o
  obtain ⟨c, hd, c1, c2, c3, c4⟩ := afterWrites_dma
  have hw : leAt m.body 16 8 + leAt m.body 24 8 < U64 := by rw [r3, r4]; exact ha
  have e := (C72_map written_talk hn hc hw hd).2 (by rw [hl, r0]; omega)
  rw [r1, r2, r3, r4, hf] at e
  rw [show (call cfg (run cfg (init cfg true (some (8, 2 ^ 40)) pci) written).1 (.run env (.req m.hdr m.body [6]))) = o from
    by rw [← hf]] at e
  clear_value o
  refine ⟨fun h => ?_, fun h => ?_⟩
  · rw [overlapping_decision c2 c4 hr h] at e
    exact e.1
  · rw [fresh_decision c1 c2 c3 c4 h] at e
    exact e.1

end

end Verif.Server
