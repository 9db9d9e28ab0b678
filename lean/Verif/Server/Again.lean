import Verif.Server.Refused

/-!
# A request that is sent again

C114: a client may repeat a request that was carried out, at once or later, as long as nothing else has changed the tables: the second
copy leaves them as they are, but for the pages recorded as dirty and for what the config space and the device's own reset do. -/

namespace Verif.Server
open Verif
open Verif.Dma (Fd)

/-- The second message is a copy of the first.  The descriptors are new (`recvmsg` hands out other numbers), as many as before. -/
structure Copy (m m' : Msg) : Prop where
  cmd : m'.hdr.cmd = m.hdr.cmd
  body : m'.body = m.body
  fds : m'.fds.length = m.fds.length

/-- What carrying out the copy can change. -/
structure Repeats (cfg : Cfg) (m m' : Msg) (a b : St) : Prop where
  mig : b.mig = a.mig
  /-- an interrupt bound by the first request is bound to the descriptor the copy has in the same place -/
  irqs : ∀ s, b.irqs.get s = a.irqs.get s ∨ m.hdr.cmd = 8 ∧ ∃ (k : Nat) (fd fd' : Fd), m.fds[k]? = some fd ∧ m'.fds[k]? = some fd' ∧
    a.irqs.get s = some (some fd) ∧ b.irqs.get s = some (some fd')
  /-- pages are reported once -/
  dma : b.dma = a.dma ∨ (m.hdr.cmd = 3 ∧ leAt m.body 4 4 = 1 ∨ m.hdr.cmd = 16 ∧ leAt m.body 4 4 = 0x10008) ∧
    ∃ c c', a.dma = some c ∧ b.dma = some c' ∧ BitsOnly c c'
  /-- accesses to the config space; what the device does in its reset callback -/
  pci : b.pci = a.pci ∨ ((m.hdr.cmd = 9 ∨ m.hdr.cmd = 10) ∧ leAt m.body 8 4 = 7 ∨ m.hdr.cmd = 13 ∧ cfg.hasReset = true) ∧
    ∃ mem, b.pci = { a.pci with mem }

theorem Repeats.refl (cfg : Cfg) (m m' : Msg) (a : St) : Repeats cfg m m' a a := ⟨rfl, fun _ => .inl rfl, .inl rfl, .inl rfl⟩

/-! ## Guest memory -/

theorem map_again {os os' : Dma.OS} {h h' : Bool} {c : Dma.Ctl} {q q' : Dma.MapReq} (ha : q'.addr = q.addr) (hs : q'.size = q.size)
    (h1 : (Dma.handleMap os h c q).res = .ok ()) :
    (Dma.handleMap os' h' (Dma.handleMap os h c q).ctl q').ctl = (Dma.handleMap os h c q).ctl := by
  have hc := Dma.handleMap_case os h c q
  generalize Dma.handleMap os h c q = o at hc h1
  have key : ∀ c' : Dma.Ctl, (∃ r ∈ c'.regions, r.info.base = q.addr ∧ r.info.len = q.size) →
      (Dma.handleMap os' h' c' q').ctl = c' := by
    intro c' ⟨r, hr, h3, h4⟩
    have hc' := Dma.handleMap_case os' h' c' q'
    generalize Dma.handleMap os' h' c' q' = o' at hc'
    cases hc' with
    | flags => rfl
    | fail => rfl
    | again => rfl
    | new r' _ _ _ h5 => exact absurd ⟨h3.trans ha.symm, h4.trans hs.symm⟩ (h5 r hr).1
  cases hc with
  | flags => cases h1
  | fail => cases h1
  | again idx r _ hx hb hl => exact key c ⟨r, List.mem_of_getElem? hx, hb, hl⟩
  | new r _ _ _ _ hn => exact key _ ⟨r, by simp, hn.hbase, hn.hlen⟩

theorem unmap_ok {cfg : Cfg} {env : Env} {st : St} {c : Dma.Ctl} {body : List Byte} {fds : List Fd}
    (h : (dmaUnmap cfg env st c body fds).res = .ok ()) :
    (∃ b, (Dma.handleUnmap env.alloc cfg.dma.hasUnreg c (leAt body 8 8) (leAt body 16 8) (unmapKind env body)).2.1 = .ok b) ∧
    (dmaUnmap cfg env st c body fds).st = { st with dma := some (Dma.handleUnmap env.alloc cfg.dma.hasUnreg c (leAt body 8 8)
      (leAt body 16 8) (unmapKind env body)).1 } := by
  unfold dmaUnmap at h ⊢
  by_cases hb : body = []
  · rw [if_pos hb] at h; cases h
  rw [if_neg hb] at h ⊢
  cases hv : validUnmap body with
  | err e' => rw [hv] at h; cases h
  | fault f => rw [hv] at h; cases h
  | ok u =>
    rw [hv] at h
    dsimp only at h ⊢
    generalize Dma.handleUnmap env.alloc cfg.dma.hasUnreg c (leAt body 8 8) (leAt body 16 8) (unmapKind env body) = o at h ⊢
    obtain ⟨c', r, ev⟩ := o
    cases r with
    | ok b => cases b <;> exact ⟨⟨_, rfl⟩, rfl⟩
    | okEmpty => cases h
    | err e' => cases h
    | fault f => cases h

theorem unmap_again {v v' u u' : Bool} {c : Dma.Ctl} (hi : Dma.Inv2 c) {a s : Nat} {k k' : Dma.UnmapKind} (hk : k = .all ↔ k' = .all)
    {b b' : Option (List Byte)} (h1 : (Dma.handleUnmap v u c a s k).2.1 = .ok b)
    (h2 : (Dma.handleUnmap v' u' (Dma.handleUnmap v u c a s k).1 a s k').2.1 = .ok b') :
    (Dma.handleUnmap v' u' (Dma.handleUnmap v u c a s k).1 a s k').1 = (Dma.handleUnmap v u c a s k).1 := by
  have hc := Dma.handleUnmap_case v u c a s k
  generalize Dma.handleUnmap v u c a s k = o at hc h1 h2 ⊢
  cases hc with
  | enoent => cases h1
  | nomem => cases h1
  | dirtyFail c1 pg bs buf hint o h3 h4 => exact absurd h1 (h4 b)
  | assert => cases h1
  | cleared h3 =>
    have hc' := Dma.handleUnmap_case v' u' { c with regions := [] } a s k'
    dsimp only at h2 ⊢
    generalize Dma.handleUnmap v' u' { c with regions := [] } a s k' = o' at hc' h2
    cases hc' with
    | removed c1 l1 l2 r b h4 => exact absurd (hk.mp h3) h4
    | cleared => rfl
    | enoent _ h4 => exact absurd (hk.mp h3) h4
    | nomem => cases h2
    | dirtyFail c1 pg bs buf hint o h3 h4 => exact absurd h2 (h4 b')
    | assert => cases h2
  | removed c1 l1 l2 r b1 h3 hg _ _ _ hr hb hl _ hn =>
    have hn2 : ∀ x ∈ ({ c1 with regions := l1 ++ l2 } : Dma.Ctl).regions, ¬ (x.info.base = a ∧ x.info.len = s) := by
      have hp : c1.geoms.Pairwise Dma.KeyG := by rw [hg]; exact hi.keys
      unfold Dma.Ctl.geoms at hp
      rw [hr, List.map_append, List.map_cons, List.pairwise_append, List.pairwise_cons] at hp
      intro x hx hax
      rcases List.mem_append.mp hx with hx | hx
      · exact hn x hx hax
      · exact hp.2.1.1 x.geom (List.mem_map_of_mem hx) ⟨hb.trans hax.1.symm, hl.trans hax.2.symm⟩
    have hc' := Dma.handleUnmap_case v' u' { c1 with regions := l1 ++ l2 } a s k'
    dsimp only at h2 ⊢
    generalize ({ c1 with regions := l1 ++ l2 } : Dma.Ctl) = c2 at hc' h2 hn2
    generalize Dma.handleUnmap v' u' c2 a s k' = o' at hc' h2
    cases hc' with
    | removed c3 l3 l4 r' b h4 hg' _ _ _ hr' hb' hl' =>
      have hm : r'.geom ∈ c3.geoms := List.mem_map_of_mem (by rw [hr']; simp)
      rw [hg'] at hm
      obtain ⟨x, hx, he⟩ := List.mem_map.mp hm
      refine absurd ?_ (hn2 x hx)
      have hxi : x.info = r'.info := congrArg Prod.fst he
      rw [hxi]
      exact ⟨hb', hl'⟩
    | cleared h4 => exact absurd (hk.mpr h4) h3
    | enoent => cases h2
    | nomem => cases h2
    | dirtyFail c1 pg bs buf hint o h3 h4 => exact absurd h2 (h4 b')
    | assert => cases h2

theorem kind_all (env env' : Env) (body : List Byte) : unmapKind env body = .all ↔ unmapKind env' body = .all := by
  unfold unmapKind
  by_cases h1 : leAt body 4 4 = UNMAP_ALL
  · rw [if_pos h1, if_pos h1]
  rw [if_neg h1, if_neg h1]
  by_cases h2 : leAt body 4 4 = UNMAP_DIRTY
  · rw [if_pos h2, if_pos h2]; exact ⟨nofun, nofun⟩
  · rw [if_neg h2, if_neg h2]

/-! ## Interrupts -/

theorem bind_again {cfg : Irq.Cfg} (hc : cfg.Ok) {wr wr' : Nat → Option Nat} {st : Irq.Irqs} {body : List Byte} {fds fds' : List Fd}
    (hf : fds'.length = fds.length) (hw : Irq.Roomy cfg st)
    (hw' : Irq.Roomy cfg (Irq.handleSet cfg wr st body (fds.map some)).irqs)
    (h1 : (Irq.handleSet cfg wr st body (fds.map some)).res = .ok ()) (s : Irq.Slot) :
    (Irq.handleSet cfg wr' (Irq.handleSet cfg wr st body (fds.map some)).irqs body (fds'.map some)).irqs.get s =
      (Irq.handleSet cfg wr st body (fds.map some)).irqs.get s ∨
    ∃ (k : Nat) (fd fd' : Fd), fds[k]? = some fd ∧ fds'[k]? = some fd' ∧
      (Irq.handleSet cfg wr st body (fds.map some)).irqs.get s = some (some fd) ∧
      (Irq.handleSet cfg wr' (Irq.handleSet cfg wr st body (fds.map some)).irqs body (fds'.map some)).irqs.get s =
        some (some fd') := by
  have hq : Irq.ReqOk cfg body fds.length := by
    apply (Irq.validate_ok hc.small body fds.length).mp
    unfold Irq.handleSet at h1
    rw [List.length_map] at h1
    cases hv : Irq.validate cfg body fds.length with
    | ok u => rfl
    | err e => rw [hv] at h1; cases h1
    | fault f => rw [hv] at h1; cases h1
  have c1 := Irq.set_case hc hw wr hq
  rw [← hf] at hq
  have c2 := Irq.set_case hc hw' wr' hq
  generalize Irq.handleSet cfg wr st body (fds.map some) = o at c1 c2 h1 ⊢
  generalize Irq.handleSet cfg wr' o.irqs body (fds'.map some) = o' at c2 ⊢
  have hnil : fds' = [] ↔ fds = [] := by
    rw [← List.length_eq_zero_iff, ← List.length_eq_zero_iff, hf]
  cases c2 with
  | state => exact .inl rfl
  | signal => exact .inl rfl
  | disable st2 m2 ha2 hd2 hcl2 =>
    left
    dsimp only
    by_cases hs : s ∈ Irq.disSlots (Irq.Req.ofBytes body).index (m2 - (Irq.Req.ofBytes body).start) (Irq.Req.ofBytes body).start
    · rw [hcl2.gone s hs]
      cases c1 with
      | state ev ha => omega
      | disable st1 m1 ha1 hd1 hcl1 =>
        have hm : m1 = m2 := by
          rcases hd1 with ⟨e1, e2, _, e3⟩ | ⟨e1, _, e2, e3⟩ <;> rcases hd2 with ⟨f1, f2, _, f3⟩ | ⟨f1, _, f2, f3⟩ <;> omega
        rw [← hm] at hs
        exact (hcl1.gone s hs).symm
      | signal sel ha hf hsel hn h0 =>
        rcases hsel with ⟨e1, _⟩ | ⟨e1, _⟩ <;> rcases hd2 with ⟨f1, f2, _, f3⟩ | ⟨f1, _, f2, f3⟩ <;> omega
      | bind st1 ha1 hd1 hf1 =>
        rcases hd2 with ⟨f1, _⟩ | ⟨_, f2, _⟩
        · omega
        · exact absurd (hnil.mp f2) hf1
    · rw [hcl2.same s hs]
  | bind st2 ha2 hd2 hf2 hlen2 hl2 hb2 hs2 =>
    by_cases hs : s ∈ Irq.disSlots (Irq.Req.ofBytes body).index (Irq.Req.ofBytes body).count (Irq.Req.ofBytes body).start
    · right
      obtain ⟨i, hi, he⟩ := List.mem_map.mp hs
      obtain ⟨h3, h4⟩ := List.mem_range'_1.mp hi
      have hik : (Irq.Req.ofBytes body).start + (i - (Irq.Req.ofBytes body).start) = i := by omega
      have hk2 : i - (Irq.Req.ofBytes body).start < fds'.length := by omega
      have hk1 : i - (Irq.Req.ofBytes body).start < fds.length := by omega
      have g2 := hb2 _ hk2
      rw [hik, he] at g2
      refine ⟨i - (Irq.Req.ofBytes body).start, _, _, List.getElem?_eq_getElem hk1, List.getElem?_eq_getElem hk2, ?_, g2⟩
      cases c1 with
      | state ev ha => omega
      | disable st1 m1 ha1 hd1 hcl1 =>
        rcases hd1 with ⟨f1, _⟩ | ⟨_, f2, _⟩
        · omega
        · exact absurd (hnil.mpr f2) hf2
      | signal sel ha hf hsel hn h0 => exact absurd (hnil.mpr hf) hf2
      | bind st1 ha1 hd1 hf1 hlen1 hl1 hb1 hs1 =>
        have g1 := hb1 _ hk1
        rw [hik, he] at g1
        exact g1
    · left; exact hs2 s hs

/-! ## Features -/

theorem state_again {cb cb' : Nat → Option Nat} {a t : Nat} (h : (Mig.setState cb a t).2.1 = .ok ()) :
    (Mig.setState cb a t).1 = t ∧ (Mig.setState cb' t t).1 = t := by
  have key : ∀ fuel k a, (Mig.setLoop cb fuel k a t).2.1 = .ok () → (Mig.setLoop cb fuel k a t).1 = t := by
    intro fuel
    induction fuel with
    | zero =>
      intro k a h
      unfold Mig.setLoop at h ⊢
      by_cases hs : a = t
      · rw [if_pos hs]; exact hs
      · rw [if_neg hs] at h; cases h
    | succ n ih =>
      intro k a h
      unfold Mig.setLoop at h ⊢
      by_cases hs : a = t
      · rw [if_pos hs]; exact hs
      rw [if_neg hs] at h ⊢
      dsimp only at h ⊢
      cases hn : Mig.next a t with
      | fault f => rw [hn] at h; cases h
      | err e => rw [hn] at h; cases h
      | ok s =>
        rw [hn] at h
        dsimp only at h ⊢
        by_cases he : s = Mig.ERROR
        · rw [if_pos he] at h; cases h
        rw [if_neg he] at h ⊢
        generalize Mig.deviceState (cb k) a s = d at h ⊢
        obtain ⟨x, r, tr⟩ := d
        cases r with
        | ok u => exact ih _ _ h
        | err e => cases h
        | fault f => cases h
  unfold Mig.setState at h ⊢
  by_cases ht : t > Mig.NUM_STATES
  · rw [if_pos ht] at h; cases h
  rw [if_neg ht] at h ⊢
  refine ⟨key _ _ _ h, ?_⟩
  rw [if_neg ht]
  unfold Mig.setLoop
  rw [if_pos rfl]

theorem map_ok {α β : Type} {r : Res α} {f : α → β} {y : β} (h : r.map f = .ok y) : ∃ x, r = .ok x := by
  cases r with
  | ok x => exact ⟨x, rfl⟩
  | err e => cases h
  | fault e => cases h

theorem feature_again {env env' : Mig.FEnv} {st : Mig.FSt} {d : Option Dma.Ctl} {body : List Byte} {l : List Byte}
    (h : leAt body 4 4 - leAt body 4 4 % 65536 = Mig.F_SET → (Mig.handleFeature env st body).2.1 = .ok l) :
    (Mig.handleFeature env' { mig := (Mig.handleFeature env st body).1.mig, dma := d } body).1.mig =
      (Mig.handleFeature env st body).1.mig := by
  rcases Mig.feature_cases env' { mig := (Mig.handleFeature env st body).1.mig, dma := d } body with
    he | ⟨n, hn, hsup, ⟨hops, he⟩ | ⟨hops, he⟩ | ⟨_, _, he⟩⟩
  · rw [he]
  · rw [he]
    unfold Mig.featGet
    split
    · rfl
    · split <;> rfl
  · replace h := h hops
    rw [he]
    dsimp only at hn
    rw [hn]
    unfold Mig.featSet
    by_cases h1 : leAt body 0 4 < body.length
    · rw [if_pos h1]
    rw [if_neg h1]
    by_cases h2 : env'.alloc = false
    · rw [if_pos h2]
    rw [if_neg h2]
    by_cases h3 : Mig.isMigFeature (leAt body 4 4 % 65536) = true
    · rw [if_pos h3]
      dsimp only
      rcases Mig.feature_cases env st body with he1 | ⟨n1, hn1, _, ⟨hops1, he1⟩ | ⟨hops1, he1⟩ | ⟨_, hx, _⟩⟩
      · rw [he1] at h; cases h
      · rw [hops1] at hops; cases hops
      · rw [he1] at h hn
        unfold Mig.featSet at h hn
        rw [if_neg h1] at h hn
        by_cases h4 : env.alloc = false
        · rw [if_pos h4] at h; cases h
        rw [if_neg h4, if_pos h3] at h hn
        dsimp only at h hn
        cases hn
        obtain ⟨u, hu⟩ := map_ok h
        unfold Mig.migSet at hu ⊢
        by_cases h5 : leAt body 4 4 % 65536 ≠ Mig.FEAT_STATE
        · rw [if_pos h5] at hu; cases hu
        rw [if_neg h5] at hu ⊢
        cases hr : rd body 8 4 with
        | err e => rw [hr] at hu
        | fault f => rw [hr] at hu
        | ok t =>
          rw [hr] at hu
          dsimp only at hu ⊢
          obtain ⟨g1, g2⟩ := state_again (cb' := env'.cb) hu
          rw [if_neg h5, g1, g2]
      · exact absurd hops hx
    rw [if_neg h3]
    by_cases h4 : Mig.isDmaFeature (leAt body 4 4 % 65536) = true
    · rw [if_pos h4]
    · rw [if_neg h4]
  · rw [he]

/-- Logging is started once, stopped once; a report changes what is recorded. -/
theorem logging_again {env env' : Mig.FEnv} {st : Mig.FSt} {g : Option Nat} {body : List Byte} {l : List Byte}
    (hstart : ∀ c ca pg, st.dma = some c → (Dma.loggingStart ca c pg).2 = .ok () →
      ∀ ca', (Dma.loggingStart ca' (Dma.loggingStart ca c pg).1 pg).1 = (Dma.loggingStart ca c pg).1)
    (h : leAt body 4 4 - leAt body 4 4 % 65536 = Mig.F_SET → (Mig.handleFeature env st body).2.1 = .ok l) :
    (Mig.handleFeature env' { mig := g, dma := (Mig.handleFeature env st body).1.dma } body).1.dma =
      (Mig.handleFeature env st body).1.dma ∨ leAt body 4 4 = 0x10008 ∧ ∃ c c', (Mig.handleFeature env st body).1.dma = some c ∧
        (Mig.handleFeature env' { mig := g, dma := (Mig.handleFeature env st body).1.dma } body).1.dma = some c' ∧ BitsOnly c c' := by
  rcases Mig.feature_cases env' { mig := g, dma := (Mig.handleFeature env st body).1.dma } body with
    he | ⟨n, hn, hsup, ⟨hops, he⟩ | ⟨hops, he⟩ | ⟨_, _, he⟩⟩
  · rw [he]; exact .inl rfl
  · rw [he]
    generalize (Mig.handleFeature env st body).1.dma = d
    unfold Mig.featGet
    by_cases h1 : Mig.isMigFeature (leAt body 4 4 % 65536) = true
    · rw [if_pos h1]; exact .inl rfl
    rw [if_neg h1]
    by_cases h2 : Mig.isDmaFeature (leAt body 4 4 % 65536) = true
    · rw [if_pos h2]
      dsimp only
      have hfl : leAt body 4 4 = 0x10008 := by
        replace hops : leAt body 4 4 - leAt body 4 4 % 65536 = 0x10000 := hops
        simp only [Mig.isDmaFeature, Bool.or_eq_true, beq_iff_eq] at h2
        rcases h2 with (h2 | h2) | h2
        · replace h2 : leAt body 4 4 % 65536 = 6 := h2
          have hv : leAt body 4 4 = 0x10006 := by omega
          rw [hv] at hsup
          exact absurd hsup (by simp [Mig.supported]; decide)
        · replace h2 : leAt body 4 4 % 65536 = 7 := h2
          have hv : leAt body 4 4 = 0x10007 := by omega
          rw [hv] at hsup
          exact absurd hsup (by simp [Mig.supported]; decide)
        · replace h2 : leAt body 4 4 % 65536 = 8 := h2
          omega
      unfold Mig.dmaGet
      cases d with
      | none => exact .inl rfl
      | some c =>
        dsimp only
        cases hx : rd body 8 8 with
        | err e => exact .inl rfl
        | fault f => exact .inl rfl
        | ok iova =>
        cases hy : rd body 16 8 with
        | err e => exact .inl rfl
        | fault f => exact .inl rfl
        | ok len =>
        cases hz : rd body 24 8 with
        | err e => exact .inl rfl
        | fault f => exact .inl rfl
        | ok pg =>
        dsimp only
        cases hb : getBitmapSize len pg with
        | err e => exact .inl rfl
        | fault f => exact .inl rfl
        | ok n =>
          dsimp only
          by_cases h6 : leAt body 0 4 < 32 + n
          · rw [if_pos h6]; exact .inl rfl
          rw [if_neg h6]
          by_cases h7 : env'.alloc = false
          · rw [if_pos h7]; exact .inl rfl
          rw [if_neg h7]
          have hq := (query_bits c env'.hint iova len pg n (List.replicate n 0#8)).1
          generalize Dma.dirtyPageGet c env'.hint iova len pg n (List.replicate n 0#8) = g at hq
          obtain ⟨c', r⟩ := g
          right
          refine ⟨hfl, c, c', rfl, ?_, hq⟩
          cases r <;> rfl
    · rw [if_neg h2]; exact .inl rfl
  · left
    replace h := h hops
    rw [he]
    unfold Mig.featSet
    by_cases h1 : leAt body 0 4 < body.length
    · rw [if_pos h1]
    rw [if_neg h1]
    by_cases h2 : env'.alloc = false
    · rw [if_pos h2]
    rw [if_neg h2]
    by_cases h3 : Mig.isMigFeature (leAt body 4 4 % 65536) = true
    · rw [if_pos h3]
    rw [if_neg h3]
    by_cases h4 : Mig.isDmaFeature (leAt body 4 4 % 65536) = true
    · rw [if_pos h4]
      dsimp only
      rcases Mig.feature_cases env st body with he1 | ⟨n1, hn1, _, ⟨hops1, he1⟩ | ⟨hops1, he1⟩ | ⟨_, hx, _⟩⟩
      · rw [he1] at h; cases h
      · rw [hops1] at hops; cases hops
      · rw [he1] at h ⊢
        unfold Mig.featSet at h ⊢
        rw [if_neg h1] at h ⊢
        by_cases h5 : env.alloc = false
        · rw [if_pos h5] at h; cases h
        rw [if_neg h5, if_neg h3, if_pos h4] at h ⊢
        dsimp only at h ⊢
        obtain ⟨u, hu⟩ := map_ok h
        cases hd : st.dma with
        | none => rw [hd] at hu; cases hu
        | some c =>
          rw [hd] at hu
          unfold Mig.dmaSet at hu ⊢
          dsimp only at hu ⊢
          by_cases h6 : leAt body 4 4 % 65536 = Mig.FEAT_LOG_START
          · rw [if_pos h6] at hu ⊢
            cases hr : rd body 8 8 with
            | err e => rw [hr] at hu; cases hu
            | fault f => rw [hr] at hu; cases hu
            | ok pg =>
              rw [hr] at hu
              dsimp only at hu ⊢
              rw [if_pos h6]
              exact congrArg some (hstart c env.ca pg hd hu env'.ca)
          rw [if_neg h6] at hu ⊢
          by_cases h7 : leAt body 4 4 % 65536 = Mig.FEAT_LOG_STOP
          · rw [if_pos h7]
            dsimp only
            rw [if_neg h6, if_pos h7]
            dsimp only
            have h0 : (Dma.loggingStop c).dirtyPgsize = 0 := by
              unfold Dma.loggingStop
              split
              · assumption
              · rfl
            generalize Dma.loggingStop c = c2 at h0
            unfold Dma.loggingStop
            rw [if_pos h0]
          · rw [if_neg h7] at hu; cases hu
      · exact absurd hops hx
    · rw [if_neg h4]
  · rw [he]; exact .inl rfl

/-! ## Requests -/

section
variable {cfg : Cfg} {env env' : Env} {st a : St} {m m' : Msg} {dma : Option (Nat × Nat)}

/-- Requests that change no table by themselves: what they say can be refused, or be a mere question. -/
def Msg.Passive (m : Msg) : Prop :=
  m.hdr.cmd ∉ [2, 3, 8, 13, 16] ∨ m.hdr.cmd = 16 ∧ leAt m.body 4 4 - leAt m.body 4 4 % 65536 ≠ Mig.F_SET

/-- C114, for one request that was carried out: carrying out a copy of it, whatever the memory allocator and the device do the second
time, and whether it succeeds or not. -/
theorem C114_request (hi : cfg.irq.Ok) (hr : Reached cfg dma st.dma st.irqs) (hra : Reached cfg dma a.dma a.irqs)
    (h1 : m.Passive ∨ (exec cfg env st m).res = .ok ()) (hs : Same4 a (exec cfg env st m).st) (hm : Copy m m')
    (h2 : (exec cfg env' a m').res.isFault = false) : Repeats cfg m m' a (exec cfg env' a m').st := by
  have hfeat : m.hdr.cmd = 16 → exec cfg env st m = feature env st m.body m.fds ∧
      exec cfg env' a m' = feature env' a m.body m'.fds := by
    intro hc
    refine ⟨exec_feature hc, ?_⟩
    rw [exec_feature (hm.cmd.trans hc), hm.body]
  have hok : m.hdr.cmd = 16 → ∃ x, leAt m.body 4 4 - leAt m.body 4 4 % 65536 = Mig.F_SET →
      (Mig.handleFeature env.feat { mig := st.mig, dma := st.dma } m.body).2.1 = .ok x := by
    intro hc
    rcases h1 with (h1 | ⟨_, h1⟩) | h1
    · rw [hc] at h1; exact absurd h1 (by decide)
    · exact ⟨[], fun h => absurd h h1⟩
    · rw [(hfeat hc).1] at h1
      unfold feature Done.pure at h1
      obtain ⟨x, hx⟩ := map_ok h1
      exact ⟨x, fun _ => hx⟩
  have hdone : m.hdr.cmd ∈ [2, 3, 8, 13] → (exec cfg env st m).res = .ok () := by
    intro hc
    rcases h1 with (h1 | ⟨h1, _⟩) | h1
    · exact absurd (by simp only [List.mem_cons, List.not_mem_nil, or_false] at hc ⊢; omega) h1
    · rw [h1] at hc; exact absurd hc (by decide)
    · exact h1
  have hmig : (exec cfg env' a m').res ≠ .ok () → m.hdr.cmd = 16 → (exec cfg env' a m').st.mig = a.mig := by
    intro _ hc
    obtain ⟨e1, e2⟩ := hfeat hc
    rw [e1] at hs
    rw [e2]
    obtain ⟨x, hx⟩ := hok hc
    have := feature_again (env' := env'.feat) (d := a.dma) hx
    have hsm : a.mig = (Mig.handleFeature env.feat { mig := st.mig, dma := st.dma } m.body).1.mig := hs.mig
    rw [← hsm] at this
    exact this
  cases h3 : (exec cfg env' a m').res with
  | fault f => rw [h3] at h2; cases h2
  | err e =>
    have t := C113_request hra h3
    refine ⟨?_, fun s => .inl (by rw [t.irqs]), ?_, ?_⟩
    · rcases t.mig with t1 | ⟨t1, _⟩
      · exact t1
      · exact hmig (by rw [h3]; exact nofun) (hm.cmd.symm.trans t1)
    · rcases t.dma with t1 | ⟨t1, t2, _, c, c', t3, t4, t5, _⟩
      · exact .inl t1
      · exact .inr ⟨.inl ⟨hm.cmd.symm.trans t1, hm.body ▸ t2⟩, c, c', t3, t4, t5⟩
    · have := t.pci
      rw [hm.cmd, hm.body] at this
      exact this
  | ok u =>
    clear h2 hmig
    revert h3
    have hne : ∀ {n : Nat}, m'.hdr.cmd = n → m.hdr.cmd = n := fun h => hm.cmd.symm.trans h
    apply exec_elim (P := fun d => d.res = .ok u → Repeats cfg m m' a d.st)
    case noDma => exact fun _ _ _ => Repeats.refl ..
    case info => exact fun _ _ => Repeats.refl ..
    case regInfo => exact fun _ _ => Repeats.refl ..
    case ioFds => exact fun _ _ => Repeats.refl ..
    case irqI => exact fun _ _ => Repeats.refl ..
    case migR => exact fun _ _ => Repeats.refl ..
    case migW => exact fun _ _ => Repeats.refl ..
    case other => exact fun _ _ => Repeats.refl ..
    case rd =>
      intro hc _
      have t := access_traces (cfg := cfg) (env := env') (st := a) (m := m') (e := 0) (w := false) (.inl hc)
      have := t.pci
      rw [hm.cmd, hm.body] at this
      rw [hm.body]
      exact ⟨rfl, fun _ => .inl rfl, .inl rfl, this⟩
    case wr =>
      intro hc _
      have t := access_traces (cfg := cfg) (env := env') (st := a) (m := m') (e := 0) (w := true) (.inr hc)
      have := t.pci
      rw [hm.cmd, hm.body] at this
      rw [hm.body]
      exact ⟨rfl, fun _ => .inl rfl, .inl rfl, this⟩
    case map =>
      intro c hc hd h3
      replace hc : m.hdr.cmd = Wire.CMD_DMA_MAP := hne hc
      have h1 := hdone (by rw [hc]; decide)
      rw [hm.body] at h3 ⊢
      unfold exec at h1 hs
      rw [if_pos hc] at h1 hs
      cases hd0 : st.dma with
      | none =>
        rw [hd0] at hs
        have := hs.dma
        rw [hd] at this
        have h5 : some c = st.dma := this
        rw [hd0] at h5; cases h5
      | some c0 =>
        rw [hd0] at h1 hs
        dsimp only at h1 hs
        unfold dmaMap at h1 hs h3 ⊢
        by_cases hb : m.body = []
        · rw [if_pos hb] at h1; cases h1
        rw [if_neg hb] at h1 hs h3 ⊢
        by_cases hl : m.body.length < 32 ∨ leAt m.body 0 4 < 32
        · rw [if_pos hl] at h1; cases h1
        rw [if_neg hl] at h1 hs h3 ⊢
        dsimp only at h1 hs h3 ⊢
        have hcc := hs.dma
        rw [hd] at hcc
        have hcc' : c = (Dma.handleMap env.os cfg.dma.hasReg c0 (Dma.MapReq.mk (leAt m.body 4 4) (leAt m.body 8 8)
          (leAt m.body 16 8) (leAt m.body 24 8) m.fds)).ctl := Option.some.inj hcc
        refine ⟨rfl, fun _ => .inl rfl, .inl ?_, .inl rfl⟩
        dsimp only
        rw [hd]
        rw [hcc']
        exact congrArg some (map_again rfl rfl h1)
    case unmap =>
      intro c hc hd h3
      replace hc : m.hdr.cmd = Wire.CMD_DMA_UNMAP := hne hc
      have h1 := hdone (by rw [hc]; decide)
      rw [hm.body] at h3 ⊢
      unfold exec at h1 hs
      rw [if_neg (by rw [hc]; decide), if_pos hc] at h1 hs
      cases hd0 : st.dma with
      | none =>
        rw [hd0] at hs
        have := hs.dma
        rw [hd] at this
        have h5 : some c = st.dma := this
        rw [hd0] at h5; cases h5
      | some c0 =>
        rw [hd0] at h1 hs
        dsimp only at h1 hs
        obtain ⟨⟨b, g1⟩, g2⟩ := unmap_ok h1
        obtain ⟨⟨b', g3⟩, g4⟩ := unmap_ok h3
        have hinv : Dma.Inv2 c0 := by
          obtain ⟨⟨ops, k1, k2⟩, _⟩ := hr
          rw [hd0] at k2
          cases dma with
          | none => cases k2
          | some x =>
            have hc0 : c0 = (Dma.run cfg.dma (Dma.create x.1 x.2) ops).1 := Option.some.inj k2
            rw [hc0]
            exact Dma.inv2_run cfg.dma x.1 x.2 ops fun op ho => ⟨(k1 op ho).2, (k1 op ho).1⟩
        have hcc := hs.dma
        rw [hd, g2] at hcc
        have hcc' : c = (Dma.handleUnmap env.alloc cfg.dma.hasUnreg c0 (leAt m.body 8 8) (leAt m.body 16 8)
          (unmapKind env m.body)).1 := Option.some.inj hcc
        rw [g4]
        refine ⟨rfl, fun _ => .inl rfl, .inl ?_, .inl rfl⟩
        dsimp only
        rw [hd]
        rw [hcc'] at g3 ⊢
        exact congrArg some (unmap_again hinv (kind_all env env' m.body) g1 g3)
    case irqS =>
      intro hc h3
      replace hc : m.hdr.cmd = Wire.CMD_SET_IRQS := hne hc
      have h1 := hdone (by rw [hc]; decide)
      rw [hm.body] at h3 ⊢
      have hx : exec cfg env st m = setIrqs cfg env st m.body m.fds := by
        unfold exec
        rw [if_neg (by rw [hc]; decide), if_neg (by rw [hc]; decide), if_neg (by rw [hc]; decide), if_neg (by rw [hc]; decide),
          if_neg (by rw [hc]; decide), if_neg (by rw [hc]; decide), if_pos hc]
      rw [hx] at h1 hs
      have hroom : ∀ {i : Irq.Irqs} {d : Option Dma.Ctl}, Reached cfg dma d i → Irq.Roomy cfg.irq i := by
        rintro i d ⟨_, ops, rfl⟩
        exact (Irq.wf_run hi ops (Irq.wf_realize cfg.irq)).roomy
      have hai : a.irqs = (Irq.handleSet cfg.irq env.eventfd st.irqs m.body (m.fds.map some)).irqs := hs.irqs
      have hR := hroom hra
      rw [hai] at hR
      refine ⟨rfl, ?_, .inl rfl, .inl rfl⟩
      intro s
      have := bind_again (wr' := env'.eventfd) hi hm.fds (hroom hr) hR h1 s
      rw [← hai] at this
      exact this.imp id fun h => ⟨hc, h⟩
    case rst =>
      intro hc h3
      replace hc : m.hdr.cmd = Wire.CMD_RESET := hne hc
      have h1 := hdone (by rw [hc]; decide)
      have hx : (exec cfg env st m).st = (deviceReset cfg env st .device).1 ∧
          (exec cfg env st m).res = (deviceReset cfg env st .device).2.1 := by
        unfold exec
        rw [if_neg (by rw [hc]; decide), if_neg (by rw [hc]; decide), if_neg (by rw [hc]; decide), if_neg (by rw [hc]; decide),
          if_neg (by rw [hc]; decide), if_neg (by rw [hc]; decide), if_neg (by rw [hc]; decide), if_neg (by rw [hc]; decide),
          if_neg (by rw [hc]; decide), if_pos hc]
        exact ⟨rfl, rfl⟩
      have g := hs.mig
      rw [hx.1] at g
      rw [hx.2] at h1
      dsimp only at h3 ⊢
      unfold deviceReset at h1 g h3 ⊢
      by_cases h5 : cfg.hasReset = true
      · rw [if_pos h5] at h1 g h3 ⊢
        dsimp only at h1 g h3 ⊢
        cases h6 : env'.resetCb .device with
        | some e' => rw [h6] at h3; cases h3
        | none =>
          cases h7 : env.resetCb .device with
          | some e' => rw [h7] at h1; cases h1
          | none =>
            rw [h7] at g
            refine ⟨?_, fun _ => .inl rfl, .inl rfl, .inr ⟨.inr ⟨hc, h5⟩, _, rfl⟩⟩
            dsimp only at g ⊢
            rw [g]
            cases st.mig <;> rfl
      · rw [if_neg h5] at g ⊢
        refine ⟨?_, fun _ => .inl rfl, .inl rfl, .inl rfl⟩
        dsimp only at g ⊢
        rw [g]
        cases st.mig <;> rfl
    case feat =>
      intro hc h3
      replace hc : m.hdr.cmd = 16 := hne hc
      obtain ⟨e1, -⟩ := hfeat hc
      rw [e1] at hs
      rw [hm.body] at h3 ⊢
      obtain ⟨x, hx⟩ := hok hc
      have hsm : a.mig = (Mig.handleFeature env.feat { mig := st.mig, dma := st.dma } m.body).1.mig := hs.mig
      have hsd : a.dma = (Mig.handleFeature env.feat { mig := st.mig, dma := st.dma } m.body).1.dma := hs.dma
      have g1 := feature_again (env' := env'.feat) (d := a.dma) hx
      have hstart : ∀ c ca pg, st.dma = some c → (Dma.loggingStart ca c pg).2 = .ok () →
          ∀ ca', (Dma.loggingStart ca' (Dma.loggingStart ca c pg).1 pg).1 = (Dma.loggingStart ca c pg).1 := by
        intro c ca pg hd he ca'
        obtain ⟨⟨ops, _, k2⟩, _⟩ := hr
        cases dma with
        | none => rw [hd] at k2; cases k2
        | some y =>
          rw [hd] at k2
          have hcc : c = (Dma.run cfg.dma (Dma.create y.1 y.2) ops).1 := Option.some.inj k2
          by_cases h0 : c.dirtyPgsize = 0
          · rw [hcc] at h0
            rcases Dma.C16_start cfg.dma y.1 y.2 ops ca pg h0 with ⟨c', h3, h4, h5, _⟩ | ⟨e'', h3, _⟩
            · rw [← hcc] at h3
              rw [h3, Dma.C16_restart c' ca' pg (by omega)]
            · rw [← hcc] at h3; rw [h3] at he; cases he
          · rw [Dma.C16_restart c ca pg h0, Dma.C16_restart c ca' pg h0]
      have g2 := logging_again (env' := env'.feat) (g := a.mig) hstart hx
      rw [← hsm] at g1
      rw [← hsd] at g2
      refine ⟨g1, fun _ => .inl rfl, ?_, .inl rfl⟩
      exact g2.imp id fun ⟨h5, c, c', h6, h7, h8⟩ => ⟨.inr ⟨hc, h5⟩, c, c', h6, h7, h8⟩

end

/-! ## Failures that are told -/

/-- Callbacks and system calls that fail set `errno`. -/
structure Env.Honest (env : Env) : Prop where
  state : ∀ k e, env.migCb k = some e → Errno e
  device : ∀ e, env.resetCb .device = some e → Errno e
  eventfd : ∀ k e, env.eventfd k = some e → Errno e

theorem setState_errno {cb : Nat → Option Nat} (hcb : ∀ k e, cb k = some e → Errno e) {a t e : Nat}
    (h : (Mig.setState cb a t).2.1 = .err e) : Errno e := by
  have hE : Errno EINVAL := ⟨by decide, by decide⟩
  have key : ∀ fuel k a, (Mig.setLoop cb fuel k a t).2.1 = .err e → Errno e := by
    intro fuel
    induction fuel with
    | zero =>
      intro k a h
      unfold Mig.setLoop at h
      by_cases hs : a = t
      · rw [if_pos hs] at h; cases h
      · rw [if_neg hs] at h; cases h
    | succ n ih =>
      intro k a h
      unfold Mig.setLoop at h
      by_cases hs : a = t
      · rw [if_pos hs] at h; cases h
      rw [if_neg hs] at h
      dsimp only at h
      cases hn : Mig.next a t with
      | fault f => rw [hn] at h; cases h
      | err e' =>
        unfold Mig.next at hn
        split at hn
        · cases hn
        · split at hn <;> cases hn
      | ok s =>
        rw [hn] at h
        dsimp only at h
        by_cases he : s = Mig.ERROR
        · rw [if_pos he] at h; cases h; exact hE
        rw [if_neg he] at h
        unfold Mig.deviceState at h
        by_cases hv : Mig.isValid a s = false
        · rw [if_pos hv] at h; cases h; exact hE
        rw [if_neg hv] at h
        cases hk : cb k with
        | none => rw [hk] at h; exact ih _ _ h
        | some e' => rw [hk] at h; cases h; exact hcb _ _ hk
  unfold Mig.setState at h
  by_cases ht : t > Mig.NUM_STATES
  · rw [if_pos ht] at h; cases h; exact hE
  rw [if_neg ht] at h
  exact key _ _ _ h

theorem start_errno {ca : Nat → Bool} {c : Dma.Ctl} {pg e : Nat} (h : (Dma.loggingStart ca c pg).2 = .err e) : Errno e := by
  have hE : Errno EINVAL := ⟨by decide, by decide⟩
  have hon : ∀ {b : Bool} {r : Dma.Region}, Dma.startOnRegion b r pg = .err e → Errno e := by
    intro b r h
    unfold Dma.startOnRegion at h
    split at h
    · cases h
    · split at h
      · split at h
        · cases h
        · cases h; exact ⟨by decide, by decide⟩
      · rename_i hg; cases h; cases bitmap_errno hg; exact hE
      · cases h
  have hl : ∀ (rs : List Dma.Region) (i : Nat), Dma.startLoop ca pg i rs = .err e → Errno e := by
    intro rs
    induction rs with
    | nil => intro i h; cases h
    | cons r rs ih =>
      intro i h
      unfold Dma.startLoop at h
      split at h
      · split at h
        · cases h
        · rename_i hx; cases h; exact ih _ hx
        · cases h
      · split at h
        · split at h
          · cases h
          · rename_i hx; cases h; exact ih _ hx
          · cases h
        · rename_i hx; cases h; exact hon hx
        · cases h
  unfold Dma.loggingStart at h
  split at h
  · cases h; exact hE
  split at h
  · split at h
    · cases h; exact hE
    · cases h
  split at h
  · cases h
  · rename_i hx; cases h; exact hl _ _ hx
  · cases h

theorem signal_errno {index : Nat} {wr : Nat → Option Nat} (hw : ∀ k e, wr k = some e → Errno e) {e : Nat} :
    ∀ (sel : List Bool) (i k : Nat) (st : Irq.Irqs), (Irq.signalLoop index wr sel i k st).1 = .err e → Errno e := by
  intro sel
  induction sel with
  | nil => intro i k st h; cases h
  | cons b sel ih =>
    intro i k st h
    unfold Irq.signalLoop at h
    split at h
    · cases h
    · exact ih _ _ _ h
    · split at h
      · split at h
        · rename_i hk; cases h; exact hw _ _ hk
        · exact ih _ _ _ h
      · exact ih _ _ _ h

theorem ite_errno {p : Prop} [Decidable p] {x : Res Unit} {e : Nat} (h : (if p then .err EINVAL else x) = .err e)
    (hx : x = .err e → Errno e) : Errno e := by
  by_cases hp : p
  · rw [if_pos hp] at h; cases h; exact ⟨by decide, by decide⟩
  · rw [if_neg hp] at h; exact hx h

theorem validate_errno {cfg : Irq.Cfg} {body : List Byte} {n e : Nat} (h : Irq.validate cfg body n = .err e) : Errno e := by
  unfold Irq.validate at h
  by_cases hb : body = []
  · rw [if_pos hb] at h; cases h
  rw [if_neg hb] at h
  refine ite_errno h fun h => ?_
  dsimp only at h
  generalize Irq.Req.ofBytes body = q at h
  refine ite_errno h fun h => ?_
  refine ite_errno h fun h => ?_
  refine ite_errno h fun h => ?_
  refine ite_errno h fun h => ?_
  refine ite_errno h fun h => ?_
  refine ite_errno h fun h => ?_
  refine ite_errno h fun h => ?_
  refine ite_errno h fun h => ?_
  refine ite_errno h fun h => ?_
  refine ite_errno h fun h => ?_
  refine ite_errno h fun h => ?_
  refine ite_errno h fun h => ?_
  cases h

theorem validUnmap_errno {body : List Byte} {e : Nat} (h : validUnmap body = .err e) : Errno e := by
  have hE : Errno EINVAL := ⟨by decide, by decide⟩
  have hrd : ∀ {o n e}, rd body o n ≠ .err e := by
    intro o n e h
    unfold rd at h
    split at h <;> cases h
  have hl : ∀ {a b}, validUnmap.lengths body a b = .err e → Errno e := by
    intro a b h
    unfold validUnmap.lengths at h
    split at h
    · cases h; exact hE
    split at h
    · cases h; exact hE
    · cases h
  unfold validUnmap at h
  split at h
  · rename_i hx; exact absurd hx hrd
  · cases h
  split at h
  · split at h
    · rename_i hx; exact absurd hx hrd
    · cases h
    · exact hl h
  split at h
  · split at h
    · rename_i hx; exact absurd hx hrd
    · cases h
    split at h
    · cases h; exact hE
    split at h
    · rename_i hx; exact absurd hx hrd
    · cases h
    split at h
    · cases h; exact hE
    · exact hl h
  split at h
  · exact hl h
  · cases h; exact hE

section
variable {cfg : Cfg} {env : Env} {st : St} {m : Msg} {dma : Option (Nat × Nat)}

/-- A request that changes a table and fails is answered with an error number, but for an unmap with bitmap, whose reply then has no
body. -/
theorem not_silent (hi : cfg.irq.Ok) (hr : Reached cfg dma st.dma st.irqs) (hf : env.Fair) (hh : env.Honest) {e : Nat}
    (h : (exec cfg env st m).res = .err e) (hp : ¬ m.Passive) :
    Errno e ∨ m.hdr.cmd = 3 ∧ leAt m.body 4 4 = 1 ∧ (exec cfg env st m).out = .bytes [] := by
  have hE : Errno EINVAL := ⟨by decide, by decide⟩
  have hN : Errno ENOMEM := ⟨by decide, by decide⟩
  have hc : m.hdr.cmd ∈ [2, 3, 8, 13, 16] := by
    by_contra hc; exact hp (.inl hc)
  revert h
  apply exec_elim (P := fun d => d.res = .err e → Errno e ∨ m.hdr.cmd = 3 ∧ leAt m.body 4 4 = 1 ∧ d.out = .bytes [])
  case noDma => exact fun _ _ h => by cases h
  case info => intro h; rw [h] at hc; exact absurd hc (by decide)
  case regInfo => intro h; rw [h] at hc; exact absurd hc (by decide)
  case ioFds => intro h; rw [h] at hc; exact absurd hc (by decide)
  case irqI => intro h; rw [h] at hc; exact absurd hc (by decide)
  case migR => intro h; rw [h] at hc; exact absurd hc (by decide)
  case migW => intro h; rw [h] at hc; exact absurd hc (by decide)
  case rd => intro h; rw [h] at hc; exact absurd hc (by decide)
  case wr => intro h; rw [h] at hc; exact absurd hc (by decide)
  case other => exact fun _ h => by cases h; exact .inl hE
  case map =>
    intro c _ hd h
    left
    unfold dmaMap at h
    by_cases hb : m.body = []
    · rw [if_pos hb] at h; cases h
    rw [if_neg hb] at h
    by_cases hl : m.body.length < 32 ∨ leAt m.body 0 4 < 32
    · rw [if_pos hl] at h; cases h; exact hE
    rw [if_neg hl] at h
    exact handleMap_errno hf.mmap h
  case unmap =>
    intro c hc3 hd h
    unfold dmaUnmap at h ⊢
    by_cases hb : m.body = []
    · rw [if_pos hb] at h; cases h
    rw [if_neg hb] at h ⊢
    cases hv : validUnmap m.body with
    | err e' => rw [hv] at h; cases h; exact .inl (validUnmap_errno hv)
    | fault f => rw [hv] at h; cases h
    | ok u =>
      rw [hv] at h
      dsimp only at h ⊢
      have hk := Dma.handleUnmap_case env.alloc cfg.dma.hasUnreg c (leAt m.body 8 8) (leAt m.body 16 8) (unmapKind env m.body)
      generalize Dma.handleUnmap env.alloc cfg.dma.hasUnreg c (leAt m.body 8 8) (leAt m.body 16 8) (unmapKind env m.body) = o
        at hk h ⊢
      cases hk with
      | removed c1 l1 l2 r b => cases b <;> cases h
      | cleared => cases h
      | enoent => cases h; exact .inl ⟨by decide, by decide⟩
      | nomem => cases h; exact .inl hN
      | assert => cases h
      | dirtyFail c1 pg bs buf hint o h3 h4 =>
        right
        have hfl : leAt m.body 4 4 = 1 := by
          unfold unmapKind at h3
          by_cases h5 : leAt m.body 4 4 = UNMAP_ALL
          · rw [if_pos h5] at h3; cases h3
          rw [if_neg h5] at h3
          by_cases h6 : leAt m.body 4 4 = UNMAP_DIRTY
          · exact h6
          · rw [if_neg h6] at h3; cases h3
        refine ⟨hc3, hfl, ?_⟩
        cases o with
        | ok b => exact absurd rfl (h4 b)
        | okEmpty => rfl
        | err e' => rfl
        | fault f => rfl
  case irqS =>
    intro _ h
    left
    have hroom : Irq.Roomy cfg.irq st.irqs := by
      obtain ⟨_, ops, ho⟩ := hr
      rw [ho]
      exact (Irq.wf_run hi ops (Irq.wf_realize cfg.irq)).roomy
    replace h : (Irq.handleSet cfg.irq env.eventfd st.irqs m.body (m.fds.map some)).res = .err e := h
    by_cases hq : Irq.ReqOk cfg.irq m.body m.fds.length
    · have hs := Irq.set_case hi hroom env.eventfd hq
      generalize Irq.handleSet cfg.irq env.eventfd st.irqs m.body (m.fds.map some) = o at hs h
      cases hs with
      | state => cases h
      | disable => cases h
      | bind => cases h
      | signal => exact signal_errno hh.eventfd _ _ _ _ h
    · rw [← Irq.validate_ok hi.small] at hq
      unfold Irq.handleSet at h
      rw [List.length_map] at h
      cases hv : Irq.validate cfg.irq m.body m.fds.length with
      | ok u => exact absurd hv hq
      | fault f => rw [hv] at h; cases h
      | err e' =>
        rw [hv] at h
        cases h
        exact validate_errno hv
  case rst =>
    intro _ h
    left
    dsimp only at h
    unfold deviceReset at h
    by_cases h1 : cfg.hasReset = true
    · rw [if_pos h1] at h
      dsimp only at h
      cases h2 : env.resetCb .device with
      | none => rw [h2] at h; cases h
      | some e' => rw [h2] at h; cases h; exact hh.device _ h2
    · rw [if_neg h1] at h; cases h
  case feat =>
    intro hc16 h
    left
    have hset : leAt m.body 4 4 - leAt m.body 4 4 % 65536 = Mig.F_SET := by
      by_contra hs; exact hp (.inr ⟨hc16, hs⟩)
    have hres : (Mig.handleFeature env.feat { mig := st.mig, dma := st.dma } m.body).2.1 = .err e := by
      unfold feature Done.pure at h
      dsimp only at h
      cases hx : (Mig.handleFeature env.feat { mig := st.mig, dma := st.dma } m.body).2.1 with
      | ok l => rw [hx] at h; cases h
      | err e' => rw [hx] at h; cases h; rfl
      | fault f => rw [hx] at h; cases h
    rcases Mig.feature_cases env.feat { mig := st.mig, dma := st.dma } m.body with
      he | ⟨n, hn, hsup, ⟨hops, he⟩ | ⟨hops, he⟩ | ⟨_, hx, he⟩⟩
    · rw [he] at hres; cases hres; exact hE
    · rw [hset] at hops; cases hops
    · rw [he] at hres
      unfold Mig.featSet at hres
      by_cases h1 : leAt m.body 0 4 < m.body.length
      · rw [if_pos h1] at hres; cases hres; exact hE
      rw [if_neg h1] at hres
      by_cases h2 : env.feat.alloc = false
      · rw [if_pos h2] at hres; cases hres; exact hN
      rw [if_neg h2] at hres
      have hmap : ∀ {r : Res Unit}, r.map (fun _ => m.body) = .err e → r = .err e := by
        intro r h; cases r <;> cases h; rfl
      by_cases h3 : Mig.isMigFeature (leAt m.body 4 4 % 65536) = true
      · rw [if_pos h3] at hres
        replace hres := hmap hres
        unfold Mig.migSet at hres
        split at hres
        · cases hres
        split at hres
        · exact setState_errno hh.state hres
        · rename_i hx; unfold Verif.rd at hx; split at hx <;> cases hx
        · cases hres
      rw [if_neg h3] at hres
      by_cases h4 : Mig.isDmaFeature (leAt m.body 4 4 % 65536) = true
      · rw [if_pos h4] at hres
        replace hres := hmap hres
        unfold Mig.dmaSet at hres
        split at hres
        · cases hres
        split at hres
        · split at hres
          · exact start_errno hres
          · rename_i hx; unfold Verif.rd at hx; split at hx <;> cases hx
          · cases hres
        split at hres
        · cases hres
        · cases hres
      · rw [if_neg h4] at hres; cases hres; exact hE
    · exact absurd hset hx

end

/-! ## Histories -/

/-- The reply says that the request was carried out: no error flag, and with a bitmap if one was to come with an unmap. -/
def Confirms (m : Msg) (w : Wire.Sent) : Prop :=
  (Wire.Hdr.ofBytes w.bytes).flags.testBit 5 = false ∧ (m.hdr.cmd = 3 ∧ leAt m.body 4 4 = 1 → 16 < w.bytes.length)

/-- C114: after any history, a call answers a request with success; after further calls that leave the tables alone, a call deals
with a copy of the request.  If the connection is kept, the tables stay as they are, but for what `Repeats` allows. -/
theorem C114_again {cfg : Cfg} (hi : cfg.irq.Ok) (ht : TableOk cfg.tbl) (mig : Bool) (dma : Option (Nat × Nat)) (pci : Pci.Pci)
    (ops : List Op) (op : Op) (mid : List Op) (ho : ∀ o ∈ ops ++ op :: mid, o.OSOk ∧ o.Good Real)
    (hno : Completes cfg (init cfg mig dma pci) (ops ++ op :: mid))
    (hf : op.Fair) (hh : ∀ env, op.env? = some env → env.Honest) (m : Msg)
    (hm : op.subject (run cfg (init cfg mig dma pci) ops).1 = some m)
    (w : Wire.Sent) (hw : w ∈ sents (call cfg (run cfg (init cfg mig dma pci) ops).1 op).evs) (hc : Confirms m w)
    (hdet : .detach ∉ (call cfg (run cfg (init cfg mig dma pci) ops).1 op).evs)
    (hmid : Same4 (run cfg (init cfg mig dma pci) (ops ++ op :: mid)).1 (call cfg (run cfg (init cfg mig dma pci) ops).1 op).st)
    (op' : Op) (hf' : op'.Fair) (m' : Msg) (hm' : op'.subject (run cfg (init cfg mig dma pci) (ops ++ op :: mid)).1 = some m')
    (hcopy : Copy m m') (hend : (call cfg (run cfg (init cfg mig dma pci) (ops ++ op :: mid)).1 op').res.isFault = false)
    (hdet' : .detach ∉ (call cfg (run cfg (init cfg mig dma pci) (ops ++ op :: mid)).1 op').evs) :
    let a := (run cfg (init cfg mig dma pci) (ops ++ op :: mid)).1
    Repeats cfg m m' a (call cfg a op').st := by
  intro a
  have hno1 := (completes_append ops (op :: mid)).mp hno
  have hr := run_reached cfg mig dma pci ops (fun o h => (ho o (List.mem_append_left _ h)).1)
  have hk : KeptGood Real (run cfg (init cfg mig dma pci) ops).1 :=
    kept_run ops (fun _ h => by cases h) (fun o h => (ho o (List.mem_append_left _ h)).2) hno1.1
  have hra : Reached cfg dma a.dma a.irqs := run_reached cfg mig dma pci _ (fun o h => (ho o h).1)
  have hka : KeptGood Real a := kept_run _ (fun _ h => by cases h) (fun o h => (ho o h).2) hno
  change op'.subject a = some m' at hm'
  change (call cfg a op').res.isFault = false at hend
  change Ev.detach ∉ (call cfg a op').evs at hdet'
  change Same4 a _ at hmid
  have hend1 : (call cfg (run cfg (init cfg mig dma pci) ops).1 op).res.isFault = false := hno1.2.1
  clear_value a
  generalize (run cfg (init cfg mig dma pci) ops).1 = st at *
  have hT := call_turn hi ht hr hk op hf hend1
  have hT' := call_turn hi ht hra hka op' hf' hend
  generalize call cfg st op = o at hT hw hdet hmid
  generalize call cfg a op' = o' at hT' hdet'
  have same : Same4 o'.st a → Repeats cfg m m' a o'.st := fun h =>
    ⟨h.mig, fun _ => .inl (by rw [h.irqs]), .inl h.dma, .inl h.pci⟩
  cases hT' with
  | idle h1 => exact same h1
  | bad h1 => exact same h1
  | refused m e h1 => exact same h1
  | reset env q h1 => exact absurd h1 hdet'
  | config f h1 => rw [h1] at hm'; cases hm'
  | mark sgl c c' h1 => rw [h1] at hm'; cases hm'
  | executed env' q' m2 l' f1 f2 f3 f4 f5 =>
    rw [hm'] at f2
    cases f2
    suffices h : Repeats cfg m m' { a with quiesced := q' } (exec cfg env' { a with quiesced := q' } m').st by
      refine ⟨f5.mig.trans h.mig, ?_, ?_, ?_⟩
      · rw [f5.irqs]; exact h.irqs
      · rw [f5.dma]; exact h.dma
      · rw [f5.pci]; exact h.pci
    cases hT with
    | idle h1 h2 => rw [h2] at hw; cases hw
    | bad h1 h2 => rw [hm] at h2; cases h2
    | reset env q h1 => exact absurd h1 hdet
    | config f h1 => rw [h1] at hm; cases hm
    | mark sgl c c' h1 => rw [h1] at hm; cases hm
    | refused m1 e h1 h2 h3 h4 h5 h6 =>
      cases hn : m1.hdr.noReply with
      | true => rw [h5 hn] at hw; cases hw
      | false =>
        obtain ⟨w', h7, h8⟩ := h6 hn
        rw [h7] at hw
        cases List.mem_singleton.mp hw
        have h13 := h8.error
        rw [hc.1] at h13
        have h14 : ¬ (e ≠ 0) := of_decide_eq_false h13.symm
        exact absurd (Nat.pos_iff_ne_zero.mp h4.1) h14
    | executed env q m1 l h1 h2 h3 h4 h5 h6 h7 h8 h9 =>
      rw [hm] at h2
      cases h2
      refine C114_request (st := { st with quiesced := q }) (a := { a with quiesced := q' }) hi hr hra ?_
        ⟨hmid.mig.trans h5.mig, hmid.dma.trans h5.dma, hmid.irqs.trans h5.irqs, hmid.pci.trans h5.pci⟩ hcopy f4
      by_cases hp : m.Passive
      · exact .inl hp
      right
      cases hx : (exec cfg env { st with quiesced := q } m).res with
      | ok u => rfl
      | fault f => rw [hx] at h4; cases h4
      | err e =>
        exfalso
        cases hn : m.hdr.noReply with
        | true => rw [h8 hn] at hw; cases hw
        | false =>
          obtain ⟨w', h10, h11, h12⟩ := h9 hn
          rw [h10] at hw
          cases List.mem_singleton.mp hw
          rcases not_silent (st := { st with quiesced := q }) hi hr h1 (hh env h3) hx hp with he | ⟨g1, g2, g3⟩
          · have h13 := h11.2
            rw [hc.1, hx] at h13
            have h14 : ¬ (e % U32 ≠ 0) := of_decide_eq_false h13.symm
            rw [Nat.mod_eq_of_lt he.2] at h14
            exact h14 (Nat.pos_iff_ne_zero.mp he.1)
          · rw [h7] at g3
            cases g3
            obtain ⟨⟨hb, k1, k2⟩, _⟩ := h11
            have := hc.2 ⟨g1, g2⟩
            rw [k2, List.length_append, k1] at this
            simp at this

/-- C114: where the copy has the same descriptors, the interrupts are bound as before. -/
theorem C114_same {cfg : Cfg} {m m' : Msg} {a b : St} (h : Repeats cfg m m' a b) (hf : m'.fds = m.fds) : b.irqs = a.irqs := by
  have hs : ∀ s, b.irqs.get s = a.irqs.get s := by
    intro s
    rcases h.irqs s with h1 | ⟨_, k, fd, fd', h1, h2, h3, h4⟩
    · exact h1
    · rw [hf, h1] at h2
      rw [h3, h4, Option.some.inj h2]
  have h1 : b.irqs.err = a.irqs.err := Option.some.inj (hs .err)
  have h2 : b.irqs.req = a.irqs.req := Option.some.inj (hs .req)
  have h3 : b.irqs.efds = a.irqs.efds := List.ext_getElem? fun i => hs (.vec i)
  cases hb : b.irqs
  cases ha : a.irqs
  rw [hb, ha] at h1 h2 h3
  cases h1; cases h2; cases h3
  rfl

section
open Demo

/-- Bind two interrupts, and again, with other descriptors for the same eventfds. -/
def Demo.binds : Op := .run env (req 3 8 0 bindBody [7, 8])
def Demo.rebinds : Op := .run env (req 4 8 0 bindBody [9, 10])

theorem Demo.env_honest : env.Honest :=
  ⟨fun _ _ h => (by cases h), fun _ h => (by cases h), fun _ _ h => (by cases h)⟩

/-- A region is mapped, logging is on, pages are marked; two interrupts are bound twice. -/
example :
    let a := (run cfg (init cfg true (some (8, 2 ^ 40)) pci) (written ++ [binds])).1
    let b := (call cfg a rebinds).st
    Repeats cfg ⟨hdr 3 8 0 20, bindBody, [7, 8]⟩ ⟨hdr 4 8 0 20, bindBody, [9, 10]⟩ a b ∧
      a.irqs.get (.vec 1) = some (some 8) ∧ b.irqs.get (.vec 1) = some (some 10) := by
  intro a b
  refine ⟨?_, by decide +kernel, by decide +kernel⟩
  have hT := written_talk
  have he : (sents (call cfg (run cfg (init cfg true (some (8, 2 ^ 40)) pci) written).1 binds).evs).length = 1 := by decide +kernel
  have real : ∀ n l, l.length = 2 → n < 65536 → Real (req n 8 0 bindBody l) := by
    intro n l hl hn
    exact req_real _ _ _ _ _ hn (by decide) (by decide) (by decide) (by decide) (.inl (by decide)) (by omega)
  cases hs : sents (call cfg (run cfg (init cfg true (some (8, 2 ^ 40)) pci) written).1 binds).evs with
  | nil => rw [hs] at he; cases he
  | cons w ws =>
    have hw : w ∈ sents (call cfg (run cfg (init cfg true (some (8, 2 ^ 40)) pci) written).1 binds).evs := by
      rw [hs]; exact List.mem_cons_self ..
    have hb : ∀ x ∈ sents (call cfg (run cfg (init cfg true (some (8, 2 ^ 40)) pci) written).1 binds).evs,
        (Wire.Hdr.ofBytes x.bytes).flags.testBit 5 = false := by decide +kernel
    refine C114_again hT.irq hT.tbl true (some (8, 2 ^ 40)) pci written binds [] ?_ ?_ ⟨env_fair, real 3 _ rfl (by decide)⟩
      (fun e he => by cases he; exact env_honest) ⟨hdr 3 8 0 20, bindBody, [7, 8]⟩ rfl w hw
      ⟨hb w hw, fun h => absurd h.1 (by decide)⟩ (by decide +kernel) ?_ rebinds
      ⟨env_fair, real 4 _ rfl (by decide)⟩ ⟨hdr 4 8 0 20, bindBody, [9, 10]⟩ rfl ⟨rfl, rfl, rfl⟩ (by decide +kernel) (by decide +kernel)
    · intro o ho
      rcases List.mem_append.mp ho with ho | ho
      · exact ⟨(hT.each o ho).2.1, (hT.each o ho).2.2.mono fun _ g => g.1.1⟩
      · cases List.mem_singleton.mp ho
        exact ⟨fun e' he => by cases he; exact env_ok rfl, real 3 _ rfl (by decide)⟩
    · exact (completes_append written [binds]).mpr ⟨hT.ends, by decide +kernel, trivial⟩
    · rw [run_append written [binds] hT.ends]
      exact Same4.refl _

end

end Verif.Server
