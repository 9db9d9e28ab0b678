import Verif.Server.Serve
import Verif.Dma.Props1

/-!
# C71: the DMA table is what the acknowledged requests say

A client that keeps an account of its mappings from the bytes it sent and the replies it got, and nothing else, knows the
table of the server. -/

namespace Verif.Server
open Verif
open Verif.Dma (Fd Tbl Represents)

/-! ## The client's account -/

/-- The entry a map request (`docs/vfio-user.rst:607-660`) asks for. -/
def wants (m : Msg) : Dma.Attr :=
  { prot := { read := (leAt m.body 4 4).testBit 0, write := (leAt m.body 4 4).testBit 1 }
    offset := leAt m.body 8 8, fd := m.fds.head? }

/-- What the client notes when the reply `w` to its request `m` arrives.  Error replies change nothing.  DMA_MAP (2) of a
range it has not mapped: a new entry.  DMA_UNMAP (3): with the flag ALL (2) the account is empty, otherwise the entry for
exactly that range is gone.  The reply to an unmap request carries the request (`docs/vfio-user.rst`); one without payload
is not an acknowledgement. -/
def note (t : Tbl) (m : Msg) (w : Wire.Sent) : Tbl :=
  if (Wire.Hdr.ofBytes w.bytes).flags.testBit 5 = true then t
  else if m.hdr.cmd = 2 then
    if (t (leAt m.body 16 8) (leAt m.body 24 8)).isSome then t
    else t.insert (leAt m.body 16 8) (leAt m.body 24 8) (wants m)
  else if m.hdr.cmd = 3 ∧ 16 < w.bytes.length then
    if leAt m.body 4 4 = 2 then Tbl.empty else t.delete (leAt m.body 8 8) (leAt m.body 16 8)
  else t

/-- One call, as the client sees it: the connection is closed, or a request is answered, or nothing it can see happens. -/
def noteCall (t : Tbl) (subject : Option Msg) (evs : List Ev) : Tbl :=
  if .detach ∈ evs then Tbl.empty
  else match subject, sents evs with
    | some m, [w] => note t m w
    | _, _ => t

/-- The account after a history. -/
def account (cfg : Cfg) : Tbl → St → List Op → Tbl
  | t, _, [] => t
  | t, st, op :: ops => account cfg (noteCall t (op.subject st) (call cfg st op).evs) (call cfg st op).st ops

/-- The client wants replies to its DMA requests. -/
def Replied (i : Wire.In) : Prop := Real i ∧ ∀ h body fds, i = .req h body fds → h.cmd = 2 ∨ h.cmd = 3 → h.noReply = false

/-! ## Requests -/

theorem scan_errno {os : Dma.OS} {a s : Nat} {fd : Option Fd} {off : Nat} {p : Dma.Prot} {i e : Nat} :
    ∀ {rs : List Dma.Region}, Dma.scan os a s fd off p i rs = .bad e → e = EINVAL := by
  intro rs
  induction rs generalizing i with
  | nil => intro h; cases h
  | cons r rs ih =>
    unfold Dma.scan
    split_ifs <;> intro h <;> first | (cases h; rfl) | cases h | exact ih h

theorem bitmap_errno {n p e : Nat} (h : getBitmapSize n p = .err e) : e = EINVAL := by
  unfold getBitmapSize at h
  split_ifs at h <;> (cases h; rfl)

theorem handleMap_errno {os : Dma.OS} (hm : ∀ len off e, os.mmap len off = .error e → Errno e) {reg : Bool} {c : Dma.Ctl}
    {q : Dma.MapReq} {e : Nat} (h : (Dma.handleMap os reg c q).res = .err e) : Errno e := by
  have hE : Errno EINVAL := ⟨by decide, by decide⟩
  have hc := Dma.handleMap_case os reg c q
  generalize Dma.handleMap os reg c q = o at h hc
  cases hc with
  | flags e' _ he => cases h; rw [he]; exact hE
  | again => cases h
  | new => cases h
  | fail e' ev _ ha _ =>
    cases h
    unfold Dma.addRegion at ha
    by_cases h1 : q.size > c.maxSize
    · rw [if_pos h1] at ha; cases ha; exact ⟨by decide, by decide⟩
    rw [if_neg h1] at ha
    generalize hs : Dma.scan os q.addr q.size q.fds.head? q.offset q.attr.prot 0 c.regions = sc at ha
    cases sc with
    | bad e1 => cases ha; rw [scan_errno hs]; exact hE
    | same i => cases ha
    | fresh =>
    dsimp only at ha
    by_cases h2 : c.regions.length = c.maxRegions
    · rw [if_pos h2] at ha; cases ha; exact hE
    rw [if_neg h2] at ha
    cases hp : Dma.pageSizeFor os q.fds.head? with
    | err e1 =>
      rw [hp] at ha
      cases ha
      unfold Dma.pageSizeFor at hp
      split at hp
      · cases hp
      · split at hp
        · cases hp; exact hE
        · cases hp
    | fault f => rw [hp] at ha; cases ha
    | ok ps =>
      rw [hp] at ha
      dsimp only at ha
      cases hfd : q.fds.head? with
      | none => rw [hfd] at ha; simp at ha
      | some x =>
        rw [hfd] at ha
        dsimp only at ha
        generalize hr1 : (if c.dirtyPgsize ≠ 0 then Dma.startOnRegion os.calloc _ c.dirtyPgsize else Res.ok _) = r1 at ha
        cases r1 with
        | fault f => cases ha
        | err e1 =>
          cases ha
          split_ifs at hr1
          unfold Dma.startOnRegion at hr1
          dsimp only at hr1
          cases hb : getBitmapSize q.size c.dirtyPgsize with
          | ok n => rw [hb] at hr1; dsimp only at hr1; split_ifs at hr1; cases hr1; exact ⟨by decide, by decide⟩
          | err e2 => rw [hb] at hr1; cases hr1; rw [bitmap_errno hb]; exact hE
          | fault f => rw [hb] at hr1; cases hr1
        | ok r =>
          dsimp only at ha
          cases hmr : Dma.mapRegion os r with
          | ok r2 => rw [hmr] at ha; simp at ha
          | error e1 =>
            rw [hmr] at ha
            cases ha
            unfold Dma.mapRegion at hmr
            dsimp only at hmr
            split at hmr
            · rename_i e2 hmm; cases hmr; exact hm _ _ _ hmm
            · cases hmr

section
variable {cfg : Cfg} {env : Env} {st : St} {c : Dma.Ctl} {t : Tbl}

/-- One map request. -/
theorem map_noted (hr : Represents c t) (hi : Dma.Inv2 c) (os : Dma.OS) (hos : os.Ok) (q : Dma.MapReq) (hq : q.Bounded) :
    ((Dma.handleMap os cfg.dma.hasReg c q).res = .ok () → Represents (Dma.handleMap os cfg.dma.hasReg c q).ctl
      (if (t q.addr q.size).isSome then t else t.insert q.addr q.size q.attr)) ∧
    (∀ e, (Dma.handleMap os cfg.dma.hasReg c q).res = .err e → Represents (Dma.handleMap os cfg.dma.hasReg c q).ctl t) := by
  have hi' := Dma.inv2_step cfg.dma c (.map os q) hi hos hq
  obtain ⟨t', h1, h2⟩ := Dma.represents_step cfg.dma c t (.map os q) hr hi hi'
  simp only [Dma.step] at h1 h2
  generalize hro : (Dma.handleMap os cfg.dma.hasReg c q).res = ro at h1
  generalize (Dma.handleMap os cfg.dma.hasReg c q).fds = fo at h1
  cases h1 with
  | mapNew _ _ _ h => exact ⟨fun _ => by rw [h]; exact h2, fun e he => by cases he⟩
  | mapAgain _ _ _ v h => exact ⟨fun _ => by rw [h]; exact h2, fun e he => by cases he⟩
  | mapFail => exact ⟨(fun h => by cases h), fun _ _ => h2⟩

/-- One unmap request. -/
theorem unmap_noted (hr : Represents c t) (hi : Dma.Inv2 c) (ok : Bool) (a s : Nat) (k : Dma.UnmapKind) :
    (∀ b, (Dma.handleUnmap ok cfg.dma.hasUnreg c a s k).2.1 = .ok b →
      Represents (Dma.handleUnmap ok cfg.dma.hasUnreg c a s k).1 (if k = .all then Tbl.empty else t.delete a s)) ∧
    ((∀ b, (Dma.handleUnmap ok cfg.dma.hasUnreg c a s k).2.1 ≠ .ok b) →
      Represents (Dma.handleUnmap ok cfg.dma.hasUnreg c a s k).1 t) := by
  have hi' := Dma.inv2_step cfg.dma c (.unmap ok a s k) hi trivial trivial
  obtain ⟨t', h1, h2⟩ := Dma.represents_step cfg.dma c t (.unmap ok a s k) hr hi hi'
  simp only [Dma.step] at h1 h2
  generalize hro : (Dma.handleUnmap ok cfg.dma.hasUnreg c a s k).2.1 = ro at h1
  cases h1 with
  | unmapOk _ _ _ _ b hk => exact ⟨fun _ _ => by rw [if_neg hk]; exact h2, fun h => absurd rfl (h b)⟩
  | unmapEmpty => exact ⟨(fun _ h => by cases h), fun _ => h2⟩
  | unmapFail => exact ⟨(fun _ h => by cases h), fun _ => h2⟩
  | unmapGetFault => exact ⟨(fun _ h => by cases h), fun _ => h2⟩
  | unmapAll _ _ _ b => exact ⟨fun _ _ => by rw [if_pos rfl]; exact h2, fun h => absurd rfl (h b)⟩

/-- What the reply to `exec` tells the client agrees with what `exec` did. -/
theorem exec_noted (hd : st.dma = some c) (hr : Represents c t) (hi : Dma.Inv2 c) (hf : env.Fair) (hos : env.os.Ok) (m : Msg)
    (hno : (exec cfg env st m).res.isFault = false) {l : List Byte} (hl : (exec cfg env st m).out = .bytes l) :
    ∃ c', (exec cfg env st m).st.dma = some c' ∧
      (m.hdr.cmd = 2 ∨ m.hdr.cmd = 3 → ∀ w, Tells w (replyErr (exec cfg env st m).res % U32) l → Represents c' (note t m w)) ∧
      (m.hdr.cmd ≠ 2 ∧ m.hdr.cmd ≠ 3 → Represents c' t) := by
  by_cases h2 : m.hdr.cmd = 2
  · have hx : exec cfg env st m = dmaMap cfg env st c m.body m.fds := by
      unfold exec
      exact (if_pos h2).trans (by rw [hd])
    rw [hx] at hno hl ⊢
    suffices ∃ c', (dmaMap cfg env st c m.body m.fds).st.dma = some c' ∧
        ((dmaMap cfg env st c m.body m.fds).res = .ok () → Represents c' (if (t (leAt m.body 16 8) (leAt m.body 24 8)).isSome
          then t else t.insert (leAt m.body 16 8) (leAt m.body 24 8) (wants m))) ∧
        (∀ e, (dmaMap cfg env st c m.body m.fds).res = .err e → Represents c' t ∧ Errno e) by
      obtain ⟨c', s1, s2, s3⟩ := this
      refine ⟨c', s1, fun _ w hw => ?_, fun h => absurd h2 h.1⟩
      unfold note
      rw [hw.2]
      cases hres : (dmaMap cfg env st c m.body m.fds).res with
      | ok u => rw [if_neg (by simp [replyErr]), if_pos h2]; exact s2 hres
      | err e =>
        obtain ⟨s4, s5, s6⟩ := s3 e hres
        rw [if_pos (by rw [replyErr, Nat.mod_eq_of_lt s6]; simp; omega)]
        exact s4
      | fault f => rw [hres] at hno; cases hno
    unfold dmaMap
    by_cases h3 : m.body = []
    · rw [if_pos h3]; exact ⟨c, hd, (fun h => by cases h), fun e h => by cases h⟩
    rw [if_neg h3]
    by_cases h4 : m.body.length < 32 ∨ leAt m.body 0 4 < 32
    · rw [if_pos h4]
      exact ⟨c, hd, (fun h => by cases h), fun e h => by cases h; exact ⟨hr, by decide, by decide⟩⟩
    rw [if_neg h4]
    have hq := mapReq_bounded m.body m.fds
    obtain ⟨g1, g2⟩ := map_noted (cfg := cfg) hr hi env.os hos (mapReq m.body m.fds) hq
    exact ⟨_, rfl, g1, fun e he => ⟨g2 e he, handleMap_errno hf.mmap he⟩⟩
  by_cases h3 : m.hdr.cmd = 3
  · have hx : exec cfg env st m = dmaUnmap cfg env st c m.body m.fds := by
      unfold exec
      exact (if_neg h2).trans ((if_pos h3).trans (by rw [hd]))
    rw [hx] at hno hl ⊢
    suffices ∃ c', (dmaUnmap cfg env st c m.body m.fds).st.dma = some c' ∧
        ((dmaUnmap cfg env st c m.body m.fds).res = .ok () ∧ l ≠ [] ∧
            Represents c' (if leAt m.body 4 4 = 2 then Tbl.empty else t.delete (leAt m.body 8 8) (leAt m.body 16 8)) ∨
          l = [] ∧ Represents c' t) by
      obtain ⟨c', s1, s2⟩ := this
      refine ⟨c', s1, fun _ w hw => ?_, fun h => absurd h3 h.2⟩
      unfold note
      obtain ⟨⟨hb, hb1, hb2⟩, hw2⟩ := hw
      have hlen : w.bytes.length = 16 + l.length := by rw [hb2, List.length_append, hb1]
      rcases s2 with ⟨s3, s4, s5⟩ | ⟨s4, s5⟩
      · rw [hw2, s3, if_neg (by simp [replyErr]), if_neg h2, if_pos ⟨h3, by
          have := List.length_pos_iff.mpr s4; omega⟩]
        exact s5
      · rw [if_neg (c := m.hdr.cmd = 2) h2, if_neg (c := m.hdr.cmd = 3 ∧ _) (by rw [hlen, s4]; simp), ite_self]
        exact s5
    unfold dmaUnmap at hl hno ⊢
    by_cases hb : m.body = []
    · rw [if_pos hb] at hno; cases hno
    rw [if_neg hb] at hl hno ⊢
    cases hv : validUnmap m.body with
    | fault f => rw [hv] at hno; cases hno
    | err e =>
      rw [hv] at hl
      cases hl
      exact ⟨c, hd, .inr ⟨rfl, hr⟩⟩
    | ok u =>
      rw [hv] at hl hno
      dsimp only at hl hno ⊢
      have hlen : 24 ≤ m.body.length := by
        unfold validUnmap at hv
        have hL : ∀ a b, validUnmap.lengths m.body a b = .ok u → a ≤ m.body.length := by
          intro a b h
          unfold validUnmap.lengths at h
          split_ifs at h with h1 h2
          omega
        revert hv
        split <;> intro hv
        · cases hv
        · cases hv
        split_ifs at hv
        · split at hv
          · cases hv
          · cases hv
          · have := hL _ _ hv; omega
        · split at hv
          · cases hv
          · cases hv
          split_ifs at hv
          split at hv
          · cases hv
          · cases hv
          split_ifs at hv
          exact hL _ _ hv
        · exact hL _ _ hv
      obtain ⟨g1, g2⟩ := unmap_noted (cfg := cfg) hr hi env.alloc (leAt m.body 8 8) (leAt m.body 16 8) (unmapKind env m.body)
      have hk : unmapKind env m.body = .all ↔ leAt m.body 4 4 = 2 := by
        unfold unmapKind UNMAP_ALL UNMAP_DIRTY
        split_ifs with a b <;> simp [a]
      generalize Dma.handleUnmap env.alloc cfg.dma.hasUnreg c (leAt m.body 8 8) (leAt m.body 16 8)
        (unmapKind env m.body) = o at hl hno g1 g2
      obtain ⟨c', r, evs⟩ := o
      cases r with
      | ok b =>
        have g := g1 b rfl
        cases b with
        | none =>
          cases hl
          refine ⟨c', rfl, .inl ⟨rfl, ?_, ?_⟩⟩
          · intro h
            have := congrArg List.length h
            rw [List.length_take] at this
            simp only [List.length_nil] at this
            omega
          · simpa only [hk] using g
        | some bm =>
          cases hl
          refine ⟨c', rfl, .inl ⟨rfl, ?_, ?_⟩⟩
          · intro h
            have := congrArg List.length h
            rw [List.length_append, List.length_take] at this
            simp only [List.length_nil] at this
            omega
          · simpa only [hk] using g
      | okEmpty => cases hl; exact ⟨c', rfl, .inr ⟨rfl, g2 (by simp)⟩⟩
      | err e => cases hl; exact ⟨c', rfl, .inr ⟨rfl, g2 (by simp)⟩⟩
      | fault f => cases hno
  · have hx := exec_touch cfg env st m
    have keep : ∀ {d}, d = st.dma → ∃ c', d = some c' ∧ (m.hdr.cmd = 2 ∨ m.hdr.cmd = 3 → ∀ w,
        Tells w (replyErr (exec cfg env st m).res % U32) l → Represents c' (note t m w)) ∧
        (m.hdr.cmd ≠ 2 ∧ m.hdr.cmd ≠ 3 → Represents c' t) :=
      fun h => ⟨c, h.trans hd, (fun h => by omega), fun _ => hr⟩
    cases hx with
    | none h1 _ _ _ => exact keep h1
    | map c1 hcmd _ _ _ _ _ => exact absurd hcmd h2
    | irq _ h1 _ _ _ => exact keep h1
    | dma c1 op hc hm hu h1 _ _ _ =>
      rw [hd] at hc
      cases hc
      refine ⟨_, h1, (fun h => by omega), fun _ => ?_⟩
      have hu := hu h3
      have hi' := Dma.inv2_step cfg.dma c op hi (by cases op <;> first | trivial | exact absurd rfl (hm _ _))
        (by cases op <;> first | trivial | exact absurd rfl (hm _ _))
      obtain ⟨t', g1, g2⟩ := Dma.represents_step cfg.dma c t op hr hi hi'
      cases op with
      | map os q => exact absurd rfl (hm _ _)
      | unmap m a s k => exact absurd rfl (hu _ _ _ _)
      | mark sgl =>
        generalize (Dma.step cfg.dma c (.mark sgl)).2.1 = rp at g1
        generalize (Dma.step cfg.dma c (.mark sgl)).1 = c1 at g2
        cases g1; exact g2
      | logStart ca p =>
        generalize (Dma.step cfg.dma c (.logStart ca p)).2.1 = rp at g1
        generalize (Dma.step cfg.dma c (.logStart ca p)).1 = c1 at g2
        cases g1; exact g2
      | logStop =>
        generalize (Dma.step cfg.dma c .logStop).2.1 = rp at g1
        generalize (Dma.step cfg.dma c .logStop).1 = c1 at g2
        cases g1; exact g2
      | query h a l p s b =>
        generalize (Dma.step cfg.dma c (.query h a l p s b)).2.1 = rp at g1
        generalize (Dma.step cfg.dma c (.query h a l p s b)).1 = c1 at g2
        cases g1; exact g2

end

/-! ## The theorem -/

theorem closed_true (cfg : Cfg) (good : Wire.In → Prop) : Closed cfg (fun _ => True) good := by
  constructor <;> intros <;> trivial

theorem represents_nil {c : Dma.Ctl} (h : c.regions = []) : Represents c Tbl.empty := by
  refine ⟨fun a s v => ?_, fun i j r s hr => ?_⟩
  · rw [h]; simp [Tbl.empty]
  · rw [h] at hr; cases hr

theorem call_noted {cfg : Cfg} (hi : cfg.irq.Ok) (ht : TableOk cfg.tbl) {x : Nat × Nat} {st : St}
    (hr : Reached cfg (some x) st.dma st.irqs) (hk : KeptGood Replied st) {c : Dma.Ctl} {t : Tbl} (hd : st.dma = some c)
    (hrep : Represents c t) (op : Op) (ho : op.Fair) (hos : op.OSOk) (hg : op.Good Replied)
    (hno : (call cfg st op).res.isFault = false) :
    ∃ c', (call cfg st op).st.dma = some c' ∧ Represents c' (noteCall t (op.subject st) (call cfg st op).evs) := by
  have hsub : ∀ m, op.subject st = some m → m.hdr.cmd = 2 ∨ m.hdr.cmd = 3 → m.hdr.noReply = false := by
    intro m hm hc
    cases op with
    | run env i =>
      cases i with
      | req h body fds => cases hm; exact hg.2 h body fds rfl hc
      | _ => cases hm
    | quiesced env e =>
      unfold Op.subject at hm
      cases hp : st.pending with
      | msg m' => rw [hp] at hm; cases hm; exact (hk m hp).2 _ _ _ rfl hc
      | _ => rw [hp] at hm; cases hm
    | _ => cases hm
  have hinv : Dma.Inv2 c := by
    obtain ⟨⟨ops, h1, h2⟩, _⟩ := hr
    rw [hd] at h2
    cases h2
    exact Dma.inv2_run _ _ _ ops (fun op h => (h1 op h).symm)
  have quiet : ∀ {evs : List Ev}, .detach ∉ evs → sents evs = [] → noteCall t (op.subject st) evs = t := by
    intro evs h1 h2
    unfold noteCall
    rw [if_neg h1, h2]
    cases op.subject st <;> rfl
  have hT := call_turn hi ht hr (fun m hm => (hk m hm).1) op ho hno
  generalize call cfg st op = o at hT hno
  cases hT with
  | idle hs h1 h2 => exact ⟨c, hs.dma.trans hd, by rw [quiet h2 h1]; exact hrep⟩
  | bad hs h1 h2 =>
    refine ⟨c, hs.dma.trans hd, ?_⟩
    unfold noteCall
    rw [if_neg h2, h1]
    exact hrep
  | refused m e hs h1 h2 he h3 h4 =>
    refine ⟨c, hs.dma.trans hd, ?_⟩
    cases hn : m.hdr.noReply with
    | true => rw [quiet h2 (h3 hn)]; exact hrep
    | false =>
      obtain ⟨w, hw, hi⟩ := h4 hn
      unfold noteCall
      rw [if_neg h2, h1, hw]
      dsimp only
      unfold note
      rw [if_pos (by rw [hi.error]; have := he.1; simp; omega)]
      exact hrep
  | executed env q m l hf h1 h2 h3 h4 h5 h6 h7 h8 =>
    obtain ⟨c', g1, g2, g3⟩ := exec_noted (cfg := cfg) (env := env) (st := { st with quiesced := q }) hd hrep hinv hf
      (hos env h2) m h3 h6
    refine ⟨c', h4.dma.trans g1, ?_⟩
    by_cases hc : m.hdr.cmd = 2 ∨ m.hdr.cmd = 3
    · obtain ⟨w, hw, hi, _⟩ := h8 (hsub m h1 hc)
      unfold noteCall
      rw [if_neg h5, h1, hw]
      exact g2 hc w hi
    · have hc2 : m.hdr.cmd ≠ 2 := fun h => hc (.inl h)
      have hc3 : m.hdr.cmd ≠ 3 := fun h => hc (.inr h)
      suffices noteCall t (op.subject st) o.evs = t by rw [this]; exact g3 ⟨hc2, hc3⟩
      unfold noteCall
      rw [if_neg h5, h1]
      split
      · rename_i m' w' hm' _
        cases hm'
        unfold note
        rw [if_neg hc2, if_neg (c := m.hdr.cmd = 3 ∧ _) (fun h => hc3 h.1), ite_self]
      · rfl
  | reset env q h1 h2 h3 =>
    obtain ⟨ev3, he⟩ := resetQuiesced_exact hi env (st := { st with quiesced := q }) hr
    rw [he] at h3
    refine ⟨_, h3.dma.trans (deviceReset_tables ..).1, ?_⟩
    unfold noteCall
    rw [if_pos h1]
    exact represents_nil rfl
  | config f h1 h2 h3 => exact ⟨c, by rw [h2]; exact hd, by rw [quiet (by rw [h3]; simp) (by rw [h3]; rfl)]; exact hrep⟩
  | mark sgl c0 c' h1 h2 h3 h4 h5 =>
    rw [hd] at h2
    cases h2
    refine ⟨c', by rw [h4], ?_⟩
    rw [quiet (by rw [h5]; simp) (by rw [h5]; rfl)]
    exact hrep.geoms (Dma.sglMark_geom h3).1

theorem run_noted {cfg : Cfg} (hi : cfg.irq.Ok) (ht : TableOk cfg.tbl) {x : Nat × Nat} (ops : List Op) {st : St}
    (hr : Reached cfg (some x) st.dma st.irqs) (hk : KeptGood Replied st) {c : Dma.Ctl} {t : Tbl} (hd : st.dma = some c)
    (hrep : Represents c t) (ho : ∀ op ∈ ops, op.Fair ∧ op.OSOk ∧ op.Good Replied) (hno : Completes cfg st ops) :
    ∃ c', (run cfg st ops).1.dma = some c' ∧ Represents c' (account cfg t st ops) := by
  induction ops generalizing st c t with
  | nil => exact ⟨c, hd, hrep⟩
  | cons op ops ih =>
    obtain ⟨o1, o2, o3⟩ := ho op (List.mem_cons_self ..)
    obtain ⟨c', h1, h2⟩ := call_noted hi ht hr hk hd hrep op o1 o2 o3 hno.1
    have hrun : (run cfg st (op :: ops)).1 = (run cfg (call cfg st op).st ops).1 := by
      conv_lhs => unfold run
      dsimp only
      rw [hno.1]
      rfl
    rw [hrun]
    exact ih ((stable_reached cfg (some x)).kept.call hr op o2) ((closed_true cfg Replied).call st hk op o3).2 h1 h2
      (fun op' h => ho op' (List.mem_cons_of_mem _ h)) hno.2

/-- C71. -/
theorem C71_ledger {cfg : Cfg} (hi : cfg.irq.Ok) (ht : TableOk cfg.tbl) (mig : Bool) (x : Nat × Nat) (pci : Pci.Pci)
    (ops : List Op) (ho : ∀ op ∈ ops, op.Fair ∧ op.OSOk ∧ op.Good Replied)
    (hno : Completes cfg (init cfg mig (some x) pci) ops) :
    ∃ c, (run cfg (init cfg mig (some x) pci) ops).1.dma = some c ∧
      Represents c (account cfg Tbl.empty (init cfg mig (some x) pci) ops) :=
  run_noted hi ht ops ⟨⟨[], (fun _ h => by cases h), rfl⟩, [], rfl⟩ (fun _ h => by cases h) rfl (represents_nil rfl) ho hno

section
open Demo

theorem replied_req (id cmd : Nat) (body : List Byte) (fds : List Fd) (h1 : id < 65536) (h2 : cmd < 65536)
    (h5 : body.length ≤ 1048576 + 16) (h6 : body ≠ []) (h7 : fds.length ≤ 1024) : Replied (req id cmd 0 body fds) :=
  ⟨req_real _ _ _ _ _ h1 h2 (by decide) (by decide) h5 (.inl h6) h7, fun h b f he _ => by cases he; simp [hdr, Wire.Hdr.noReply]⟩

/-- Two regions are mapped; a third request overlaps and is refused; one region is removed while the device is busy. -/
def dealings : List Op :=
  [.attach (.ok { maxFds := 8, maxXfer := 1048576, pgsize := 4096 }),
   .run env (req 1 2 0 (mapBody 0x1000000) [5]), .run env (req 2 2 0 (mapBody 0x2000000) []),
   .run env (req 3 2 0 (mapBody 0x2100000) [6]), .run busy (req 4 3 0 (unmapBody 0x1000000) []), .quiesced env 0]

theorem dealings_ok : ∀ op ∈ dealings, op.Fair ∧ op.OSOk ∧ op.Good Replied := by
  have hos : ∀ {e : Env}, e.os = os → ∀ i, (Op.run e i).OSOk := fun h i e' he => by cases he; exact env_ok h
  have hq : (Op.quiesced env 0).OSOk := fun e' he => by cases he; exact env_ok rfl
  intro op hop
  simp only [dealings, List.mem_cons, List.not_mem_nil, or_false] at hop
  rcases hop with rfl | rfl | rfl | rfl | rfl | rfl
  · exact ⟨trivial, (fun e he => by cases he), trivial⟩
  all_goals first
    | exact ⟨env_fair, hq, trivial⟩
    | (have hr : Replied (req 1 2 0 (mapBody 0x1000000) [5]) :=
          replied_req _ _ _ _ (by decide) (by decide) (by decide) (by decide) (by decide)
       exact ⟨⟨env_fair, hr.1⟩, hos rfl _, hr⟩)
    | (have hr : Replied (req 2 2 0 (mapBody 0x2000000) []) :=
          replied_req _ _ _ _ (by decide) (by decide) (by decide) (by decide) (by decide)
       exact ⟨⟨env_fair, hr.1⟩, hos rfl _, hr⟩)
    | (have hr : Replied (req 3 2 0 (mapBody 0x2100000) [6]) :=
          replied_req _ _ _ _ (by decide) (by decide) (by decide) (by decide) (by decide)
       exact ⟨⟨env_fair, hr.1⟩, hos rfl _, hr⟩)
    | (have hr : Replied (req 4 3 0 (unmapBody 0x1000000) []) :=
          replied_req _ _ _ _ (by decide) (by decide) (by decide) (by decide) (by decide)
       exact ⟨⟨busy_fair, hr.1⟩, hos rfl _, hr⟩)

example : (run cfg (init cfg true (some (8, 2 ^ 40)) pci) dealings).1.dma.map (fun c => c.regions.length) = some 1 ∧
    ∃ c, (run cfg (init cfg true (some (8, 2 ^ 40)) pci) dealings).1.dma = some c ∧
      Represents c (account cfg Tbl.empty (init cfg true (some (8, 2 ^ 40)) pci) dealings) ∧
      account cfg Tbl.empty (init cfg true (some (8, 2 ^ 40)) pci) dealings 0x2000000 0x200000 =
        some ⟨⟨true, true⟩, 0, none⟩ ∧
      account cfg Tbl.empty (init cfg true (some (8, 2 ^ 40)) pci) dealings 0x1000000 0x200000 = none := by
  refine ⟨by decide +kernel, ?_⟩
  obtain ⟨c, h1, h2⟩ := C71_ledger irq_ok table_ok true (8, 2 ^ 40) pci dealings dealings_ok
    ⟨by decide +kernel, by decide +kernel, by decide +kernel, by decide +kernel, by decide +kernel, by decide +kernel, trivial⟩
  exact ⟨c, h1, h2, by decide +kernel, by decide +kernel⟩

/-- Unmap with the bitmap of `size` bytes at `addr`. -/
def unmapDirtyBody (addr size : Nat) : List Byte :=
  enc 4 4096 ++ enc 4 1 ++ enc 8 addr ++ enc 8 size ++ enc 8 0x1000 ++ enc 8 128

/-- Why the payload matters: an unmap request with bitmap for two adjacent regions is answered without the error flag and
without payload, and removes nothing. -/
theorem C71_silent_unmap :
    let ops : List Op := [.attach (.ok { maxFds := 8, maxXfer := 1048576, pgsize := 4096 }),
      .run env (req 1 2 0 (mapBody 0x1000000) [5]), .run env (req 2 2 0 (mapBody 0x1200000) [6]),
      .run env (req 3 16 0 logBody []), .run env (req 4 3 0 (unmapDirtyBody 0x1000000 0x400000) [])]
    let r := run cfg (init cfg true (some (8, 2 ^ 40)) pci) ops
    Completes cfg (init cfg true (some (8, 2 ^ 40)) pci) ops ∧
      ((sents r.2).getLast?.map fun w => ((Wire.Hdr.ofBytes w.bytes).flags.testBit 5, w.bytes.length)) = some (false, 16) ∧
      r.1.dma.map (·.regions.length) = some 2 := by
  refine ⟨⟨?_, ?_, ?_, ?_, ?_, trivial⟩, ?_, ?_⟩ <;> decide +kernel

end

end Verif.Server
