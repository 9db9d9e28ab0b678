import Verif.Dma.Lemmas

/-! # What a step does to the table, and invariants of histories -/

namespace Verif.Dma
open Verif

abbrev Geom := Info × Option Fd × Nat

def Ctl.geoms (c : Ctl) : List Geom := c.regions.map Region.geom

/-- What `handleMap` did. -/
inductive MapCase (os : OS) (hasReg : Bool) (c : Ctl) (q : MapReq) : Out → Prop where
  /-- refused before the descriptor was taken -/
  | flags (e : Nat) : q.flags % U32 / 4 ≠ 0 → e = EINVAL →
      MapCase os hasReg c q { ctl := c, fds := q.fds.map some, res := .err e, evs := [] }
  /-- refused by the controller -/
  | fail (e : Nat) (ev : List Ev) : q.flags % U32 / 4 = 0 →
      addRegion os c q.addr q.size q.fds.head? q.offset q.attr.prot = (c, .err e, ev) →
      (ev = [] ∨ ∃ x, q.fds.head? = some x ∧ ev = [.close x]) →
      MapCase os hasReg c q
        { ctl := c, fds := (q.fds.map some).set 0 none, res := .err e,
          evs := ev ++ closeEv q.fds.head? }
  /-- repeat of an existing region -/
  | again (idx : Nat) (r : Region) : q.flags % U32 / 4 = 0 →
      c.regions[idx]? = some r → r.info.base = q.addr → r.info.len = q.size →
      r.offset = q.offset → os.sameFile r.fd q.fds.head? = true → r.info.prot = q.attr.prot →
      addRegion os c q.addr q.size q.fds.head? q.offset q.attr.prot = (c, .ok idx, []) →
      MapCase os hasReg c q
        { ctl := c, fds := (q.fds.map some).set 0 none, res := .ok (),
          evs := if hasReg then [.register r.info] else [] }
  /-- new region -/
  | new (r : Region) : q.flags % U32 / 4 = 0 → q.size ≤ c.maxSize → c.regions.length ≠ c.maxRegions →
      (∀ s ∈ c.regions, ¬ (s.info.base = q.addr ∧ s.info.len = q.size) ∧ ¬ Clash q.addr q.size s) →
      NewRegion os c q.addr q.size q.fds.head? q.offset q.attr.prot r →
      addRegion os c q.addr q.size q.fds.head? q.offset q.attr.prot =
        ({ c with regions := c.regions ++ [r] }, .ok c.regions.length,
          if q.fds.head? = none then [] else [.mmap r.info.mapBase r.info.mapLen]) →
      MapCase os hasReg c q
        { ctl := { c with regions := c.regions ++ [r] }, fds := (q.fds.map some).set 0 none,
          res := .ok (),
          evs := (if q.fds.head? = none then [] else [.mmap r.info.mapBase r.info.mapLen]) ++
            (if hasReg then [.register r.info] else []) }

theorem handleMap_case (os : OS) (hasReg : Bool) (c : Ctl) (q : MapReq) :
    MapCase os hasReg c q (handleMap os hasReg c q) := by
  have hcons : takeFirst q.fds = Res.ok (q.fds.head?, (q.fds.map some).set 0 none) := by
    cases q.fds with
    | nil => rfl
    | cons a l => simp [takeFirst, consumeFd]
  unfold handleMap
  simp only
  split
  · exact .flags _ (by assumption) rfl
  · rename_i hfl
    have hfl : q.flags % U32 / 4 = 0 := by omega
    rw [hcons]
    simp only
    rcases addRegion_cases os c q.addr q.size q.fds.head? q.offset
        { read := q.flags.testBit 0, write := q.flags.testBit 1 } with
      ⟨e, ev, h, hev⟩ | ⟨idx, r, h, h1, h2, h3, h4, h5, h6⟩ | ⟨r, h, h1, h2, h3, h4⟩
    · simp only [h]
      exact .fail e ev hfl h hev
    · simp only [h, h1, List.nil_append]
      exact .again idx r hfl h1 h2 h3 h4 h5 h6 h
    · simp only [h, List.getElem?_append_right (Nat.le_refl _), Nat.sub_self, List.getElem?_cons_zero]
      exact .new r hfl h1 h2 h3 h4 h

/-- The events of dropping a consistent region, `hasUnreg` callback set or not. -/
def dropEvs (u : Bool) (r : Region) : List Ev :=
  (if u then [Ev.unregister r.info] else []) ++
    (match r.fd with
     | none => []
     | some fd => [.munmap r.info.mapBase r.info.mapLen, .close fd])

theorem dropRegion_evs {u r ev} (h : dropRegion u r = .ok ev) : ev = dropEvs u r ∧ r.Consistent := by
  unfold dropRegion at h
  unfold dropEvs Region.Consistent
  simp only at h
  split at h
  · rename_i hv
    split at h
    · cases h
    · rename_i fd hfd
      cases h
      simp [hfd, hv]
  · rename_i hv
    split at h
    · rename_i hfd
      cases h
      simp [hfd, hv]
    · cases h

theorem dropAll_evs {u} (rs : List Region) {ev} (h : dropAll u rs = .ok ev) :
    ev = rs.flatMap (dropEvs u) := by
  induction rs generalizing ev with
  | nil => simp only [dropAll] at h; cases h; rfl
  | cons r rs ih =>
    simp only [dropAll] at h
    split at h
    · rename_i e1 h1
      split at h
      · rename_i e2 h2
        cases h
        rw [(dropRegion_evs h1).1, ih h2]; rfl
      · cases h
      · cases h
    · cases h
    · cases h

/-- What a successful `handleUnmap` did to the table `c1` (the table after a possible bitmap read,
which has the same geometry as before). -/
inductive UnmapCase (u : Bool) (c : Ctl) (addr size : Nat) (k : UnmapKind) :
    Ctl × UnmapOut × List Ev → Prop where
  | removed (c1 : Ctl) (l1 l2 : List Region) (r : Region) (b : Option (List Byte)) :
      k ≠ .all → c1.geoms = c.geoms → c1.maxRegions = c.maxRegions → c1.maxSize = c.maxSize →
      c1.dirtyPgsize = c.dirtyPgsize →
      c1.regions = l1 ++ r :: l2 → r.info.base = addr → r.info.len = size → r.Consistent →
      (∀ s ∈ l1, ¬ (s.info.base = addr ∧ s.info.len = size)) →
      UnmapCase u c addr size k ({ c1 with regions := l1 ++ l2 }, .ok b, dropEvs u r)
  | cleared : k = .all → UnmapCase u c addr size k
      ({ c with regions := [] }, .ok none, c.regions.flatMap (dropEvs u))
  | enoent (c1 : Ctl) : k ≠ .all → c1.geoms = c.geoms → c1.maxRegions = c.maxRegions →
      c1.maxSize = c.maxSize → c1.dirtyPgsize = c.dirtyPgsize →
      (∀ s ∈ c.regions, ¬ (s.info.base = addr ∧ s.info.len = size)) →
      UnmapCase u c addr size k (c1, .err ENOENT, [])
  | nomem : UnmapCase u c addr size k (c, .err ENOMEM, [])
  /-- the bitmap could not be read: nothing removed -/
  | dirtyFail (c1 : Ctl) (pg bs : Nat) (buf : List Byte) (hint : Nat) (o : UnmapOut) :
      k = .getDirty pg bs buf hint → (∀ b, o ≠ .ok b) → c1.geoms = c.geoms →
      c1.maxRegions = c.maxRegions →
      c1.maxSize = c.maxSize → c1.dirtyPgsize = c.dirtyPgsize → UnmapCase u c addr size k (c1, o, [])
  /-- an `assert` fires: excluded when all regions are consistent -/
  | assert (c1 : Ctl) (f : Fault) : (∃ r ∈ c.regions, ¬ r.Consistent) → c1.geoms = c.geoms →
      c1.maxRegions = c.maxRegions → c1.maxSize = c.maxSize → c1.dirtyPgsize = c.dirtyPgsize →
      UnmapCase u c addr size k (c1, .fault f, [])

theorem consistent_geom {r s : Region} (h : r.geom = s.geom) : r.Consistent ↔ s.Consistent := by
  unfold Region.geom at h
  unfold Region.Consistent
  simp only [Prod.mk.injEq] at h
  rw [h.1, h.2.1]

theorem exists_of_geoms {c c1 : Ctl} (h : c1.geoms = c.geoms) {P : Region → Prop}
    (hP : ∀ r s : Region, r.geom = s.geom → (P r → P s)) (h1 : ∃ r ∈ c1.regions, P r) :
    ∃ r ∈ c.regions, P r := by
  obtain ⟨r, hr, hp⟩ := h1
  have : r.geom ∈ c1.geoms := List.mem_map_of_mem hr
  rw [h] at this
  obtain ⟨s, hs, he⟩ := List.mem_map.mp this
  exact ⟨s, hs, hP r s he.symm hp⟩

theorem forall_of_geoms {c c1 : Ctl} (h : c1.geoms = c.geoms) {P : Region → Prop}
    (hP : ∀ r s : Region, r.geom = s.geom → (P r → P s)) (h1 : ∀ r ∈ c1.regions, P r) :
    ∀ r ∈ c.regions, P r := by
  intro r hr
  have : r.geom ∈ c.geoms := List.mem_map_of_mem hr
  rw [← h] at this
  obtain ⟨s, hs, he⟩ := List.mem_map.mp this
  exact hP s r he (h1 s hs)

theorem unmapTail_case (u : Bool) (c c1 : Ctl) (addr size : Nat) (k : UnmapKind)
    (b : Option (List Byte)) (hk : k ≠ .all) (hg : c1.geoms = c.geoms)
    (hm : c1.maxRegions = c.maxRegions) (hs : c1.maxSize = c.maxSize)
    (hd : c1.dirtyPgsize = c.dirtyPgsize) :
    UnmapCase u c addr size k (unmapTail u c1 addr size b) := by
  unfold unmapTail removeRegion
  cases h : removeLoop u addr size c1.regions with
  | ok x =>
    obtain ⟨rs', ev⟩ := x
    obtain ⟨l1, r, l2, e1, e2, e3, e4, e5, e6⟩ := removeLoop_ok _ _ _ h
    subst e2
    obtain ⟨e7, e8⟩ := dropRegion_evs e5
    subst e7
    exact .removed c1 l1 l2 r b hk hg hm hs hd e1 e3 e4 e8 e6
  | err e =>
    obtain ⟨e1, e2⟩ := removeLoop_err _ _ h
    subst e1
    refine .enoent c1 hk hg hm hs hd (forall_of_geoms hg ?_ e2)
    intro r s he
    simp only [Region.geom, Prod.mk.injEq] at he
    rw [he.1]; exact id
  | fault f =>
    refine .assert c1 f ?_ hg hm hs hd
    apply exists_of_geoms hg (P := fun r => ¬ r.Consistent)
    · intro r s he; rw [consistent_geom he]; exact id
    · apply Classical.byContradiction
      intro hn
      refine removeLoop_nofault c1.regions (fun r hr => ?_) f h
      exact Classical.byContradiction fun hc => hn ⟨r, hr, hc⟩

theorem handleUnmap_case (m u : Bool) (c : Ctl) (addr size : Nat) (k : UnmapKind) :
    UnmapCase u c addr size k (handleUnmap m u c addr size k) := by
  unfold handleUnmap
  split
  · exact .nomem
  · cases k with
    | all =>
      simp only
      unfold removeAll
      cases h : dropAll u c.regions with
      | ok ev => rw [dropAll_evs _ h]; exact .cleared rfl
      | err e =>
        have : ∀ rs : List Region, dropAll u rs ≠ .err e := by
          intro rs
          induction rs with
          | nil => simp [dropAll]
          | cons r rs ih =>
            simp only [dropAll]
            split
            · split
              · simp
              · rename_i h1; intro h2; cases h2; exact ih h1
              · simp
            · rename_i h1
              unfold dropRegion at h1
              simp only at h1
              repeat' split at h1
              all_goals cases h1
            · simp
        exact absurd h (this _)
      | fault f =>
        refine .assert c f ?_ rfl rfl rfl rfl
        apply Classical.byContradiction
        intro hn
        obtain ⟨ev, hev⟩ := dropAll_ok (u := u) c.regions
          (fun r hr => Classical.byContradiction fun hc => hn ⟨r, hr, hc⟩)
        rw [hev] at h; cases h
    | plain => exact unmapTail_case u c c addr size .plain none (by simp) rfl rfl rfl rfl
    | getDirty pg bs buf hint =>
      have hg := dirtyPageGet_geom c hint addr size pg bs buf
      simp only
      generalize dirtyPageGet c hint addr size pg bs buf = o at hg
      obtain ⟨c1, o⟩ := o
      obtain ⟨h1, h2, h3, h4⟩ := hg
      cases o with
      | done bm => exact unmapTail_case u c c1 addr size _ _ (by simp) h1 h2 h3 h4
      | ret0 => exact unmapTail_case u c c1 addr size _ _ (by simp) h1 h2 h3 h4
      | noErrno => exact .dirtyFail c1 _ _ _ _ _ rfl (by simp) h1 h2 h3 h4
      | err e => exact .dirtyFail c1 _ _ _ _ _ rfl (by simp) h1 h2 h3 h4
      | fault f => exact .dirtyFail c1 _ _ _ _ _ rfl (by simp) h1 h2 h3 h4

/-- Every step leaves a sublist of the geometry, or appends one new region (map only). -/
theorem step_geoms (cfg : Cfg) (c : Ctl) (op : Op) :
    (step cfg c op).1.maxRegions = c.maxRegions ∧ (step cfg c op).1.maxSize = c.maxSize ∧
    ((step cfg c op).1.geoms.Sublist c.geoms ∨
     ∃ os q r, op = .map os q ∧ (step cfg c op).1.geoms = c.geoms ++ [r.geom] ∧
       q.size ≤ c.maxSize ∧ c.regions.length ≠ c.maxRegions ∧
       (∀ s ∈ c.regions, ¬ (s.info.base = q.addr ∧ s.info.len = q.size) ∧ ¬ Clash q.addr q.size s) ∧
       NewRegion os c q.addr q.size q.fds.head? q.offset q.attr.prot r) := by
  cases op with
  | map os q =>
    simp only [step]
    have h := handleMap_case os cfg.hasReg c q
    generalize handleMap os cfg.hasReg c q = o at h
    cases h with
    | flags e _ _ => exact ⟨rfl, rfl, .inl (List.Sublist.refl _)⟩
    | fail e ev _ _ _ => exact ⟨rfl, rfl, .inl (List.Sublist.refl _)⟩
    | again idx r _ _ _ _ _ _ _ _ => exact ⟨rfl, rfl, .inl (List.Sublist.refl _)⟩
    | new r h1 h2 h3 h4 h5 _ =>
      refine ⟨rfl, rfl, .inr ⟨os, q, r, rfl, ?_, h2, h3, h4, h5⟩⟩
      simp [Ctl.geoms]
  | unmap m a s k =>
    simp only [step]
    have h := handleUnmap_case m cfg.hasUnreg c a s k
    generalize handleUnmap m cfg.hasUnreg c a s k = o at h
    cases h with
    | removed c1 l1 l2 r b hk hg hm hs hd e1 e2 e3 e4 e5 =>
      refine ⟨hm, hs, .inl ?_⟩
      rw [← hg]
      simp only [Ctl.geoms, e1, List.map_append, List.map_cons]
      exact List.Sublist.append (List.Sublist.refl _) (List.sublist_cons_self _ _)
    | cleared _ => exact ⟨rfl, rfl, .inl (by simp [Ctl.geoms])⟩
    | enoent c1 _ hg hm hs _ _ => exact ⟨hm, hs, .inl (by rw [hg]; exact List.Sublist.refl _)⟩
    | nomem => exact ⟨rfl, rfl, .inl (List.Sublist.refl _)⟩
    | dirtyFail c1 _ _ _ _ _ _ _ hg hm hs _ => exact ⟨hm, hs, .inl (by rw [hg]; exact List.Sublist.refl _)⟩
    | assert c1 f _ hg hm hs _ => exact ⟨hm, hs, .inl (by rw [hg]; exact List.Sublist.refl _)⟩
  | logStart ca p =>
    obtain ⟨h1, h2, h3⟩ := loggingStart_geom ca c p
    exact ⟨h2, h3, .inl (by simp only [Ctl.geoms, step]; rw [h1]; exact List.Sublist.refl _)⟩
  | logStop =>
    obtain ⟨h1, h2, h3⟩ := loggingStop_geom c
    exact ⟨h2, h3, .inl (by simp only [Ctl.geoms, step]; rw [h1]; exact List.Sublist.refl _)⟩
  | query hint a l p s b =>
    obtain ⟨h1, h2, h3, _⟩ := dirtyPageGet_geom c hint a l p s b
    exact ⟨h2, h3, .inl (by simp only [Ctl.geoms, step]; rw [h1]; exact List.Sublist.refl _)⟩
  | mark sgl =>
    simp only [step]
    cases h : sglMark c sgl with
    | ok c' =>
      obtain ⟨h1, h2, h3, _⟩ := sglMark_geom h
      exact ⟨h2, h3, .inl (by simp only [Ctl.geoms]; rw [h1]; exact List.Sublist.refl _)⟩
    | err e => exact ⟨rfl, rfl, .inl (List.Sublist.refl _)⟩
    | fault f => exact ⟨rfl, rfl, .inl (List.Sublist.refl _)⟩

/-- Induction over histories. -/
theorem run_induction {cfg : Cfg} {P : Ctl → Prop} {Q : Op → Prop}
    (hstep : ∀ c op, P c → Q op → P (step cfg c op).1) :
    ∀ (ops : List Op) (c : Ctl), P c → (∀ op ∈ ops, Q op) → P (run cfg c ops).1 := by
  intro ops
  induction ops with
  | nil => intro c hc _; exact hc
  | cons op ops ih =>
    intro c hc hq
    simp only [List.mem_cons, forall_eq_or_imp] at hq
    exact ih _ (hstep c op hc hq.1) hq.2

/-! ## Invariants -/

/-- Regions lie in the address space and do not overlap (start of none inside another). -/
def SepG (x y : Geom) : Prop :=
  ¬ (x.1.base ≤ y.1.base ∧ y.1.base < x.1.base + x.1.len) ∧
  ¬ (y.1.base ≤ x.1.base ∧ x.1.base < y.1.base + y.1.len)

structure Inv (c : Ctl) : Prop where
  sep : c.geoms.Pairwise SepG
  nowrap : ∀ x ∈ c.geoms, x.1.base + x.1.len < U64
  count : c.regions.length ≤ c.maxRegions
  size : ∀ x ∈ c.geoms, x.1.len ≤ c.maxSize

theorem clash_iff {addr size : Nat} {r : Region}
    (hr : r.info.base + r.info.len < U64) (hq : addr + size < U64) :
    Clash addr size r ↔
      (r.info.base ≤ addr ∧ addr < r.info.base + r.info.len) ∨
      (addr ≤ r.info.base ∧ r.info.base < addr + size) := by
  unfold Clash Region.end64 add64
  rw [Nat.mod_eq_of_lt hr, Nat.mod_eq_of_lt hq]

theorem inv_step (cfg : Cfg) (c : Ctl) (op : Op) (hc : Inv c) (hq : op.NoWrap) :
    Inv (step cfg c op).1 := by
  obtain ⟨h1, h2, h3⟩ := step_geoms cfg c op
  have hlen : ∀ c : Ctl, c.regions.length = c.geoms.length := by intro c; simp [Ctl.geoms]
  rcases h3 with h3 | ⟨os, q, r, rfl, hg, hs, hl, hfr, hn⟩
  · refine ⟨hc.sep.sublist h3, fun x hx => hc.nowrap x (h3.subset hx), ?_, ?_⟩
    · have h4 := h3.length_le
      rw [h1, hlen]; have := hc.count; rw [hlen] at this; omega
    · intro x hx; rw [h2]; exact hc.size x (h3.subset hx)
  · simp only [Op.NoWrap] at hq
    have hb := hn.hbase
    have hle := hn.hlen
    refine ⟨?_, ?_, ?_, ?_⟩
    · rw [hg, List.pairwise_append]
      refine ⟨hc.sep, by simp, ?_⟩
      intro x hx y hy
      simp only [List.mem_singleton] at hy
      subst hy
      obtain ⟨s, hs', rfl⟩ := List.mem_map.mp hx
      have hw := hc.nowrap _ hx
      simp only [Region.geom] at hw
      have := (hfr s hs').2
      rw [clash_iff hw hq] at this
      simp only [SepG, Region.geom, hb, hle]
      omega
    · rw [hg]
      intro x hx
      simp only [List.mem_append, List.mem_singleton] at hx
      rcases hx with hx | rfl
      · exact hc.nowrap x hx
      · simp only [Region.geom, hb, hle]; exact hq
    · rw [hlen, hg, h1]
      have := hc.count
      rw [hlen] at this hl
      simp only [List.length_append, List.length_singleton]
      omega
    · rw [hg, h2]
      intro x hx
      simp only [List.mem_append, List.mem_singleton] at hx
      rcases hx with hx | rfl
      · exact hc.size x hx
      · simp only [Region.geom, hle]; exact hs

theorem inv_create (m s : Nat) : Inv (create m s) := by
  constructor <;> simp [create, Ctl.geoms]

theorem inv_run (cfg : Cfg) (m s : Nat) (ops : List Op) (h : ∀ op ∈ ops, op.NoWrap) :
    Inv (run cfg (create m s) ops).1 :=
  run_induction (fun c op hc hq => inv_step cfg c op hc hq) ops _ (inv_create m s) h

/-- Limits, without any assumption on the requests. -/
structure LimInv (c : Ctl) : Prop where
  count : c.regions.length ≤ c.maxRegions
  size : ∀ x ∈ c.geoms, x.1.len ≤ c.maxSize

theorem liminv_step (cfg : Cfg) (c : Ctl) (op : Op) (hc : LimInv c) :
    LimInv (step cfg c op).1 := by
  obtain ⟨h1, h2, h3⟩ := step_geoms cfg c op
  have hlen : ∀ c : Ctl, c.regions.length = c.geoms.length := by intro c; simp [Ctl.geoms]
  rcases h3 with h3 | ⟨os, q, r, rfl, hg, hs, hl, hfr, hn⟩
  · refine ⟨?_, ?_⟩
    · have h4 := h3.length_le
      rw [h1, hlen]; have := hc.count; rw [hlen] at this; omega
    · intro x hx; rw [h2]; exact hc.size x (h3.subset hx)
  · refine ⟨?_, ?_⟩
    · rw [hlen, hg, h1]
      have := hc.count
      rw [hlen] at this hl
      simp only [List.length_append, List.length_singleton]
      omega
    · rw [hg, h2]
      intro x hx
      simp only [List.mem_append, List.mem_singleton] at hx
      rcases hx with hx | rfl
      · exact hc.size x hx
      · simp only [Region.geom, hn.hlen]; exact hs

theorem liminv_run (cfg : Cfg) (m s : Nat) (ops : List Op) :
    LimInv (run cfg (create m s) ops).1 :=
  run_induction (Q := fun _ => True) (fun c op hc _ => liminv_step cfg c op hc) ops _
    (by constructor <;> simp [create, Ctl.geoms]) (by simp)

theorem max_run (cfg : Cfg) (ops : List Op) (c : Ctl) :
    (run cfg c ops).1.maxRegions = c.maxRegions ∧ (run cfg c ops).1.maxSize = c.maxSize := by
  have := run_induction (cfg := cfg)
    (P := fun c' => c'.maxRegions = c.maxRegions ∧ c'.maxSize = c.maxSize)
    (Q := fun _ => True)
    (fun c' op hc _ => by
      obtain ⟨h1, h2, _⟩ := step_geoms cfg c' op
      exact ⟨h1.trans hc.1, h2.trans hc.2⟩) ops c ⟨rfl, rfl⟩ (by simp)
  exact this

theorem getElem?_pairwise {α : Type} {R : α → α → Prop} {l : List α} (h : l.Pairwise R) {i j : Nat}
    {x y : α} (hi : l[i]? = some x) (hj : l[j]? = some y) (hij : i < j) : R x y := by
  obtain ⟨h1, h2⟩ := List.getElem?_eq_some_iff.mp hi
  obtain ⟨h3, h4⟩ := List.getElem?_eq_some_iff.mp hj
  have := List.pairwise_iff_getElem.mp h i j h1 h3 hij
  rwa [h2, h4] at this

theorem noshare_of_sep {c : Ctl} (h : c.geoms.Pairwise SepG) : NoShare c := by
  intro i j r s a hi hj hr hs
  unfold Region.Covers at hr hs
  have gi : c.geoms[i]? = some r.geom := by simp [Ctl.geoms, hi]
  have gj : c.geoms[j]? = some s.geom := by simp [Ctl.geoms, hj]
  rcases Nat.lt_trichotomy i j with hlt | heq | hlt
  · have := getElem?_pairwise h gi gj hlt
    unfold SepG Region.geom at this
    simp only at this
    omega
  · exact heq
  · have := getElem?_pairwise h gj gi hlt
    unfold SepG Region.geom at this
    simp only at this
    omega

end Verif.Dma
